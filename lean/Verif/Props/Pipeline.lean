import Verif.Lemmas.Pipeline
import Verif.Props.CmdLine
import Verif.Props.Sssp
import Verif.Props.Triangles

/-!
# C71: convert a graph, then run a program on the result

From the command line of the converter and the files it reads, over the files it writes, to what breadth-first search, SSSP
and triangle counting report.  The two programs may run with different numbers of ranks and threads.
-/
namespace GraphMat

variable {T : WeightType → Type}

/-- The values of the converter's edge type are written as the bytes of an `int`, which the programs read. -/
def ReadsAs {E : Type} (ct : ConvType E) (f : E → Int) : Prop := ∀ v, signedBin.enc (f v) = ct.bin.enc v ∧ IsInt32 (f v)

/-- A run of the converter that makes files for the programs: `items` and `last` are the words of its command line, `f` and `g` the
two names in it, and the input holds a graph with `N` vertices and the edges `l`. -/
structure ConvertRun (ct : ∀ k, ConvType (T k)) (env : ∀ k, ConvEnv (T k)) (files : Str → ∀ k, InFiles (T k)) (items : List Item)
    (last : Option (List Str)) (f g : Str) (wt : T .uint → List Char → Prop) (one : T .uint) (o : Options) (N : Int)
    (l : List (Edge (T .uint))) : Prop where
  good : ∀ it ∈ items, it.Good
  names : items.filterMap Item.file? ++ last.getD [] = [f, g]
  options : readOptions (items.filterMap Item.setting?) = o
  compatible : o.Compatible
  loops : o.selfloops = 0 ∨ o.selfloops = 1
  /-- the formats that the programs read are the defaults: `unsigned int` weights, binary, with header and weights -/
  type : o.edgeweighttype = 0
  format : o.outputformat = 0
  header : o.outputheader = 1
  weights : o.outputedgeweights = 1 ∨ o.outputedgeweights = 3
  circumstances : Convertible (ct .uint) wt id one (env .uint) o (files f .uint) N l

section
variable {ct : ∀ k, ConvType (T k)} {env : ∀ k, ConvEnv (T k)} {files : Str → ∀ k, InFiles (T k)} {items : List Item}
  {last : Option (List Str)} {f g : Str} {wt : T .uint → List Char → Prop} {one : T .uint} {o : Options} {N : Int}
  {l : List (Edge (T .uint))}

/-- What the converter does: it writes the lists `els` of its ranks, which hold the edges `allOf els` that the options describe. -/
theorem convert_writes (h : ConvertRun ct env files items last f g wt one o N l) :
    ∃ fs els, runConverter ct env files (items.flatMap Item.words ++ ending last) = some (some (g, .done .uint (.bin fs))) ∧
      els.mapM (writeBin (ct .uint).bin true true) = some fs ∧ RanksOk N (env .uint).nrank els ∧ (allOf els).length ≤ IMAX ∧
      Converted o N one (ct .uint).cast l (allOf els) := by
  have hc := h.circumstances
  have hlen := hc.few
  have hlen1 : l.length ≤ IMAX := by split at hlen <;> omega
  obtain ⟨els, a1, a2, a3⟩ := readInput_spec hc.good hc.input hc.ranks.1 hc.threads hc.vertices.2 hc.ids hlen1
  have hw := h.weights
  obtain ⟨els', b1, b2, b3, b4⟩ := transformEdges_spec (ct .uint) (env .uint) o one a2 hc.ranks.1 hc.ranks.2 hc.vertices.1
    hc.vertices.2 hc.threads (by rw [a3.length_eq]; exact hlen) hc.sort (fun h => by omega)
  obtain ⟨fs, c1⟩ : ∃ fs, els'.mapM (writeBin (ct .uint).bin true true) = some fs := by
    have : ∀ L : List (EdgeList (T .uint)), (∀ el ∈ L, el.WF) → ∃ fs, L.mapM (writeBin (ct .uint).bin true true) = some fs := by
      intro L hL
      induction L with
      | nil => exact ⟨[], rfl⟩
      | cons el L ih =>
        obtain ⟨fs, i1⟩ := ih fun x hx => hL x (by simp [hx])
        rw [List.mapM_cons, writeBin_eq (hL el (by simp)), i1]
        exact ⟨_, rfl⟩
    exact this els' fun el hel => (b2.ok el hel).1
  refine ⟨fs, els', ?_, c1, b2, b3, b4.of_perm a3.symm⟩
  rw [converter_command h.good h.names]
  unfold convertMain
  simp only [h.options]
  rw [if_pos ((validateOptions_iff _).mpr ⟨h.compatible, h.loops⟩), h.type]
  show Option.map _ (Option.map _ (processGraph _ _ _ _)) = _
  unfold processGraph
  rw [a1]
  simp only [Option.bind_eq_bind, Option.bind_some]
  rw [b1]
  simp only [Option.bind_some]
  unfold writeOutput
  simp only [h.format, h.header, if_true, decide_true]
  rw [show decide (o.outputedgeweights ≠ 0) = true by simp; omega, c1]
  rfl

/-- **C71, loading.**  The converter writes files holding the edges `l'` that the options describe; `ReadMTX` on any number of
ranks is `ReadEdgelist` of a distribution of exactly these edges, with `N` vertices. -/
theorem convert_then_load (h : ConvertRun ct env files items last f g wt one o N l) {val : T .uint → Int}
    (hv : ReadsAs (ct .uint) val) :
    ∃ fs l', runConverter ct env files (items.flatMap Item.words ++ ending last) = some (some (g, .done .uint (.bin fs))) ∧
      Converted o N one (ct .uint).cast l l' ∧ IdsWithin N l' ∧
      ∀ p, 0 < p → ∀ gb : Nat → Nat → Edge Int, ∃ blobs : List (List (Edge Int)),
        blobs.length = p ∧ blobs.flatten.Perm (l'.map (Edge.mapVal val)) ∧
        ∀ (V : Type) (le : LoadEnv V Int) (threads : Nat), Graph.readMTX le signedBin threads p gb fs =
          (Graph.readEdgelist le threads p N.toNat N.toNat blobs).map (·.2) := by
  have hc := h.circumstances
  obtain ⟨fs, els, a1, a2, a3, a4, a5⟩ := convert_writes h
  obtain ⟨fs', c1, c2⟩ := written_loads (bt := (ct .uint).bin) (bt' := signedBin) (fun v => (hv v).1)
    (fun v => signedBin_ok (hv v).2) a3 hc.ranks.1 hc.vertices.1 hc.vertices.2 a4
  rw [a2] at c1
  cases c1
  exact ⟨fs, allOf els, a1, a5, a3.ids, c2⟩

/-- **C71, breadth-first search.**  The hop distances reported are those of the graph in the converter's input, or, with
`--bidirectional`, of the undirected graph.  (Without `--uppertriangular` and `--randomizeID`.) -/
theorem convert_then_bfs (h : ConvertRun ct env files items last f g wt one o N l) {val : T .uint → Int}
    (hv : ReadsAs (ct .uint) val) (hu : o.uppertriangular ≠ 1) (hr : o.randomizeID ≠ 1) {nrank threads : Nat}
    (c : Cfg N.toNat nrank threads) (hfit : N.toNat + threads ≤ IMAX) (le : LoadEnv BfsV Int) (hsA : le.sA.OK) (hsT : le.sAT.OK)
    (hd : le.d = fun _ => BfsV.new) (gb : Nat → Nat → Edge Int) (e : AppEnv (BitVec 64) (BitVec 64) BfsV)
    (tmp : Nat → Nat → Nat → Option Int) {src : Nat} (h1 : 1 ≤ src) (h2 : src ≤ N.toNat) {w : Str} (hw : IsNumeral src w)
    (fuel : Nat) (hf : N.toNat ≤ fuel) (hfm : fuel ≤ IMAX) :
    ∃ fs G G', ∃ reached : List Nat,
      runConverter ct env files (items.flatMap Item.words ++ ending last) = some (some (g, .done .uint (.bin fs))) ∧
      sourceArgs [g, w] = some (some (g, (src : Int))) ∧
      Graph.readMTX le signedBin threads nrank gb fs = some G ∧
      runBfs e tmp src G fuel = some (.done (G', some (reached.length : Int))) ∧
      reached.Nodup ∧ (∀ v, v ∈ reached ↔ Reachable (arcsOf (decide (o.bidirectional = 1)) l) src v) ∧
      ∀ v, 1 ≤ v → v ≤ N.toNat → ∃ x o', o' < nrank ∧
        (∀ r, r < nrank → G'.getVertexproperty r v = some (if r = o' then some x else none)) ∧
        x.Correct (arcsOf (decide (o.bidirectional = 1)) l) src v := by
  obtain ⟨fs, l', k1, k2, k3, k4⟩ := convert_then_load h hv
  obtain ⟨blobs, m1, m2, m3⟩ := k4 nrank c.rpos gb
  have hin : ∀ es ∈ blobs, ∀ e ∈ es, e.Valid N.toNat := by
    intro es hes x hx
    obtain ⟨y, hy, rfl⟩ := List.mem_map.1 (m2.mem_iff.1 (List.mem_flatten.2 ⟨es, hes, hx⟩))
    have := k3 y hy
    show 1 ≤ y.src ∧ y.src ≤ (N.toNat : Int) ∧ 1 ≤ y.dst ∧ y.dst ≤ (N.toNat : Int)
    omega
  have harc : ∀ u v : Nat, u ≠ v → (HasEdge blobs.flatten u v ↔ HasEdge (arcsOf (decide (o.bidirectional = 1)) l) u v) := by
    intro u v huv
    rw [← k2.arcs hu hr huv, hasEdge_iff, hasEdge_iff, HasArc.perm m2, HasArc.mapVal]
  obtain ⟨out, G, G', reached, a1, a2, a3, a4, a5⟩ :=
    bfs_computes_hop_distances c hfit le hsA hsT hd m1 hin e tmp h1 h2 fuel hf hfm
  have hsrc : IsInt32 (src : Int) := by
    have := h.circumstances.vertices
    unfold IMAX at this
    unfold IsInt32
    omega
  refine ⟨fs, G, G', reached, k1, (example_arguments ⟨hw, hsrc⟩ ⟨hw, hsrc⟩ ⟨hw, hsrc⟩ g []).1, by rw [m3, a1]; rfl, a2, a3,
    fun v => (a4 v).trans ⟨fun q => q.of_arcs fun u v hv => (harc u v hv).1, fun q => q.of_arcs fun u v hv => (harc u v hv).2⟩, ?_⟩
  intro v v1 v2
  obtain ⟨x, o', b1, b2, b3⟩ := a5 v v1 v2
  exact ⟨x, o', b1, b2, b3.of_arcs harc⟩

/-- **C71, shortest paths.**  The distances reported are those of the weighted graph in the converter's input, or, with
`--bidirectional`, of the undirected graph; self loops may be removed.  (Without `--uppertriangular` and `--randomizeID`; with
`--duplicatededges 1`, or if parallel edges have equal weights.) -/
theorem convert_then_sssp (h : ConvertRun ct env files items last f g wt one o N l) {val : T .uint → Int}
    (hv : ReadsAs (ct .uint) val) (hkeep : o.outputedgeweights = 1) (hu : o.uppertriangular ≠ 1) (hr : o.randomizeID ≠ 1)
    (hdup : o.duplicatededges ≠ 0 ∨ SameValues (arcsOf (decide (o.bidirectional = 1)) l)) {nrank threads : Nat}
    (c : Cfg N.toNat nrank threads) (hfit : N.toNat + threads ≤ IMAX) (le : LoadEnv SsspV Int) (hsA : le.sA.OK) (hsT : le.sAT.OK)
    (hd : le.d = fun _ => SsspV.new) (gb : Nat → Nat → Edge Int) (e : AppEnv (BitVec 32) (BitVec 32) SsspV)
    (tmp : Nat → Nat → Nat → Option Int) {src : Nat} (h1 : 1 ≤ src) (h2 : src ≤ N.toNat) {w : Str} (hw : IsNumeral src w)
    {arcs : List (Edge Int)} (ha : arcs = (arcsOf (decide (o.bidirectional = 1)) l).map (Edge.mapVal val))
    (hno : NoOverflow arcs src N.toNat) (fuel : Nat) (hf : N.toNat ≤ fuel) (hfm : fuel ≤ IMAX) :
    ∃ fs G G', ∃ reached : List Nat,
      runConverter ct env files (items.flatMap Item.words ++ ending last) = some (some (g, .done .uint (.bin fs))) ∧
      sourceArgs [g, w] = some (some (g, (src : Int))) ∧
      Graph.readMTX le signedBin threads nrank gb fs = some G ∧
      runSssp e tmp src G fuel = some (.done (G', some (reached.length : Int))) ∧
      reached.Nodup ∧ (∀ v, v ∈ reached ↔ Reachable arcs src v) ∧
      ∀ v, 1 ≤ v → v ≤ N.toNat → ∃ x o', o' < nrank ∧
        (∀ r, r < nrank → G'.getVertexproperty r v = some (if r = o' then some x else none)) ∧
        (x.dist.toNat ≠ UMAX ∧ IsDist Int.toNat arcs src v x.dist.toNat ∨
          x.dist.toNat = UMAX ∧ ¬ Reachable arcs src v) := by
  subst ha
  obtain ⟨fs, l', k1, k2, k3, k4⟩ := convert_then_load h hv
  obtain ⟨blobs, m1, m2, m3⟩ := k4 nrank c.rpos gb
  have hin : ∀ es ∈ blobs, ∀ e ∈ es, e.Valid N.toNat := by
    intro es hes x hx
    obtain ⟨y, hy, rfl⟩ := List.mem_map.1 (m2.mem_iff.1 (List.mem_flatten.2 ⟨es, hes, hx⟩))
    have := k3 y hy
    show 1 ≤ y.src ∧ y.src ≤ (N.toNat : Int) ∧ 1 ≤ y.dst ∧ y.dst ≤ (N.toNat : Int)
    omega
  obtain ⟨e1, e2⟩ := k2.edges hkeep hu hr hdup
  have s1 : ∀ x ∈ blobs.flatten, x ∈ (arcsOf (decide (o.bidirectional = 1)) l).map (Edge.mapVal val) := by
    intro x hx
    obtain ⟨y, hy, rfl⟩ := List.mem_map.1 (m2.mem_iff.1 hx)
    exact List.mem_map.2 ⟨y, e1 y hy, rfl⟩
  have s2 : ∀ x ∈ (arcsOf (decide (o.bidirectional = 1)) l).map (Edge.mapVal val), x.src ≠ x.dst → x ∈ blobs.flatten := by
    intro x hx hne
    obtain ⟨y, hy, rfl⟩ := List.mem_map.1 hx
    exact m2.mem_iff.2 (List.mem_map.2 ⟨y, e2 y hy hne, rfl⟩)
  have hreach : ∀ v, Reachable blobs.flatten src v ↔
      Reachable ((arcsOf (decide (o.bidirectional = 1)) l).map (Edge.mapVal val)) src v := by
    intro v
    refine ⟨fun q => q.of_arcs fun u v _ ⟨x, a, b⟩ => ⟨x, s1 x a, b⟩, fun q => q.of_arcs fun u v huv ⟨x, a, b, b'⟩ => ?_⟩
    exact ⟨x, s2 x a (by rw [b, b']; exact_mod_cast huv), b, b'⟩
  obtain ⟨out, G, G', reached, a1, a2, a3, a4, a5⟩ :=
    sssp_computes_distances c hfit le hsA hsT hd m1 hin e tmp h1 h2
      ⟨fun x hx => hno.nonneg x (s1 x hx), fun v k d hk q => hno.bound v k d hk (q.of_mem s1)⟩ fuel hf hfm
  have hsrc : IsInt32 (src : Int) := by
    have := h.circumstances.vertices
    unfold IMAX at this
    unfold IsInt32
    omega
  refine ⟨fs, G, G', reached, k1, (example_arguments ⟨hw, hsrc⟩ ⟨hw, hsrc⟩ ⟨hw, hsrc⟩ g []).1, by rw [m3, a1]; rfl, a2, a3,
    fun v => (a4 v).trans (hreach v), ?_⟩
  intro v v1 v2
  obtain ⟨x, o', b1, b2, b3⟩ := a5 v v1 v2
  refine ⟨x, o', b1, b2, ?_⟩
  rcases b3 with ⟨p1, p2⟩ | ⟨p1, p2⟩
  · exact .inl ⟨p1, (IsDist.of_mem_ne s1 s2).1 p2⟩
  · exact .inr ⟨p1, fun q => p2 ((hreach v).2 q)⟩

/-- **C71, triangles.**  With `--uppertriangular` and without self loops and duplicates (the defaults), whether the ids are
renumbered or not, the total reported is the number of triangles of the undirected graph in the converter's input, and each vertex
(under its new number) holds the number of triangles of which it is the middle one. -/
theorem convert_then_count (h : ConvertRun ct env files items last f g wt one o N l) {val : T .uint → Int}
    (hv : ReadsAs (ct .uint) val) (hu : o.uppertriangular = 1) (hs : o.selfloops = 0) (hdup : o.duplicatededges = 0)
    {nrank threads : Nat} (c : Cfg N.toNat nrank threads) (hn : N.toNat + threads ≤ IMAX) (le : LoadEnv TcV Int) (hsA : le.sA.OK)
    (hsT : le.sAT.OK) {garbage : Int} (hd : le.d = fun _ => TcV.new garbage) (gb : Nat → Nat → Edge Int)
    (hfit : ∀ v, ∀ L : List (Nat × Nat × Nat), L.Nodup → (∀ t ∈ L, t.2.1 = v ∧ IsClique3 l t) → L.length ≤ IMAX)
    (e1 : AppEnv Int (List Int) TcV) (e2 : AppEnv TcV (Option Int) TcV) (tmp : Nat → Nat → Nat → BitVec 64)
    (fuel : Nat) (hf : 1 ≤ fuel) :
    ∃ fs G G' total, ∃ tris : List (Nat × Nat × Nat), ∃ π : Int → Int,
      runConverter ct env files (items.flatMap Item.words ++ ending last) = some (some (g, .done .uint (.bin fs))) ∧
      fileArgs [g] = some g ∧
      Graph.readMTX le signedBin threads nrank gb fs = some G ∧
      runTriangles e1 e2 tmp G fuel = some (.done (G', total)) ∧
      tris.Nodup ∧ (∀ t, t ∈ tris ↔ IsClique3 l t) ∧ total.toNat = tris.length ∧
      PermutesIds N π ∧ (o.randomizeID ≠ 1 → π = id) ∧
      ∀ v : Nat, 1 ≤ v → v ≤ N.toNat → ∃ o', o' < nrank ∧ ∀ r, r < nrank → ∃ id nb,
        G'.getVertexproperty r (π v).toNat =
          some (if r = o' then some ⟨id, some ((tris.countP (fun t => t.2.1 = v) : Nat) : Int), nb⟩ else none) := by
  obtain ⟨fs, l', k1, k2, k3, k4⟩ := convert_then_load h hv
  obtain ⟨blobs, m1, m2, m3⟩ := k4 nrank c.rpos gb
  have hin : ∀ es ∈ blobs, ∀ e ∈ es, e.Valid N.toNat := by
    intro es hes x hx
    obtain ⟨y, hy, rfl⟩ := List.mem_map.1 (m2.mem_iff.1 (List.mem_flatten.2 ⟨es, hes, hx⟩))
    have := k3 y hy
    show 1 ≤ y.src ∧ y.src ≤ (N.toNat : Int) ∧ 1 ≤ y.dst ∧ y.dst ≤ (N.toNat : Int)
    omega
  obtain ⟨π, p1, p2, p3, p4⟩ := k2.oriented h.circumstances.ids hu hs hdup
  obtain ⟨ρ, r1, r2⟩ := p1.inverse
  have hids := h.circumstances.ids
  have hN := h.circumstances.vertices.1
  have hsim : NoParallel blobs.flatten := by
    unfold NoParallel at p3 ⊢
    rw [(m2.map _).nodup_iff, List.map_map]
    exact p3
  -- edges of the converted graph
  have hE : ∀ x y : Nat, HasEdge blobs.flatten x y → (1 ≤ x ∧ x ≤ N.toNat ∧ 1 ≤ y ∧ y ≤ N.toNat) := by
    rintro x y ⟨z, hz, hx, hy⟩
    obtain ⟨q, hq, rfl⟩ := List.mem_map.1 (m2.mem_iff.1 hz)
    have := k3 q hq
    have hx' : q.src = x := hx
    have hy' : q.dst = y := hy
    omega
  have hA : ∀ a b : Nat, Adjacent l a b → (1 ≤ a ∧ a ≤ N.toNat ∧ 1 ≤ b ∧ b ≤ N.toNat) := by
    rintro a b (⟨q, hq, hx, hy⟩ | ⟨q, hq, hx, hy⟩)
    · have := hids q hq; omega
    · have := hids q hq; omega
  have hmap : ∀ x y : Nat, 1 ≤ x → x ≤ N.toNat → 1 ≤ y → y ≤ N.toNat →
      (HasEdge blobs.flatten x y ↔ ρ x < ρ y ∧ Adjacent l (ρ x) (ρ y)) := by
    intro x y x1 x2 y1 y2
    obtain ⟨a1, a2, a3⟩ := r2 x x1 (by omega)
    obtain ⟨b1, b2, b3⟩ := r2 y y1 (by omega)
    have hpx := p1.1 (ρ x) (by omega) a2
    have hpy := p1.1 (ρ y) (by omega) b2
    rw [hasEdge_iff, HasArc.perm m2, HasArc.mapVal, p4]
    constructor
    · rintro ⟨u, v, q1, q2, q3, q4⟩
      have hu : 1 ≤ u ∧ u ≤ N ∧ 1 ≤ v ∧ v ≤ N := by
        rcases q4 with ⟨q, hq, hx, hy⟩ | ⟨q, hq, hx, hy⟩
        · have := hids q hq; omega
        · have := hids q hq; omega
      have hux : u = (ρ x : Int) := p1.2.1 _ _ hu.1 hu.2.1 (by omega) a2 (by omega)
      have hvy : v = (ρ y : Int) := p1.2.1 _ _ hu.2.2.1 hu.2.2.2 (by omega) b2 (by omega)
      subst hux hvy
      exact ⟨by omega, q4⟩
    · rintro ⟨q1, q2⟩
      exact ⟨ρ x, ρ y, by omega, by omega, by omega, q2⟩
  let τ : Nat × Nat × Nat → Nat × Nat × Nat := fun t => (ρ t.1, ρ t.2.1, ρ t.2.2)
  let σ : Nat × Nat × Nat → Nat × Nat × Nat := fun t => ((π t.1).toNat, (π t.2.1).toNat, (π t.2.2).toNat)
  have hρσ : ∀ v : Nat, 1 ≤ v → v ≤ N.toNat → 1 ≤ (π v).toNat ∧ (π v).toNat ≤ N.toNat := by
    intro v a b
    have := p1.1 v (by omega) (by omega)
    omega
  have hrange : ∀ t, IsTriangle blobs.flatten t →
      (1 ≤ t.1 ∧ t.1 ≤ N.toNat) ∧ (1 ≤ t.2.1 ∧ t.2.1 ≤ N.toNat) ∧ (1 ≤ t.2.2 ∧ t.2.2 ≤ N.toNat) := by
    rintro t ⟨q1, q2, q3⟩
    have := hE _ _ q1
    have := hE _ _ q2
    omega
  have htri : ∀ t, IsTriangle blobs.flatten t → IsClique3 l (τ t) := by
    intro t ht
    obtain ⟨q1, q2, q3⟩ := ht
    have b1 := hE _ _ q1
    have b2 := hE _ _ q2
    have w1 := (hmap _ _ b1.1 b1.2.1 b1.2.2.1 b1.2.2.2).1 q1
    have w2 := (hmap _ _ b2.1 b2.2.1 b2.2.2.1 b2.2.2.2).1 q2
    have w3 := (hmap _ _ b1.1 b1.2.1 b2.2.2.1 b2.2.2.2).1 q3
    exact ⟨w1.1, w2.1, w1.2, w2.2, w3.2⟩
  have hcl : ∀ t, IsClique3 l t → IsTriangle blobs.flatten (σ t) ∧ τ (σ t) = t := by
    rintro ⟨a, b, d⟩ ⟨q1, q2, q3, q4, q5⟩
    simp only at q1 q2 q3 q4 q5
    have b1 := hA _ _ q3
    have b2 := hA _ _ q4
    have ea := r1 a b1.1 (by omega)
    have eb := r1 b b2.1 (by omega)
    have ed := r1 d b2.2.2.1 (by omega)
    have sa := hρσ a b1.1 b1.2.1
    have sb := hρσ b b2.1 b2.2.1
    have sd := hρσ d b2.2.2.1 b2.2.2.2
    refine ⟨⟨?_, ?_, ?_⟩, ?_⟩
    · exact (hmap _ _ sa.1 sa.2 sb.1 sb.2).2 (by rw [ea, eb]; exact ⟨q1, q3⟩)
    · exact (hmap _ _ sb.1 sb.2 sd.1 sd.2).2 (by rw [eb, ed]; exact ⟨q2, q4⟩)
    · exact (hmap _ _ sa.1 sa.2 sd.1 sd.2).2 (by rw [ea, ed]; exact ⟨by omega, q5⟩)
    · exact Prod.ext ea (Prod.ext eb ed)
  have hρinj : ∀ x y : Nat, 1 ≤ x ∧ x ≤ N.toNat → 1 ≤ y ∧ y ≤ N.toNat → ρ x = ρ y → x = y := by
    intro x y hx hy hxy
    have a := (r2 x hx.1 (by omega)).2.2
    have b := (r2 y hy.1 (by omega)).2.2
    rw [hxy] at a
    omega
  have hτinj : ∀ t, IsTriangle blobs.flatten t → ∀ t', IsTriangle blobs.flatten t' → τ t = τ t' → t = t' := by
    intro t ht t' ht' heq
    obtain ⟨c1, c2, c3⟩ := hrange t ht
    obtain ⟨d1, d2, d3⟩ := hrange t' ht'
    have x1 : ρ t.1 = ρ t'.1 := congrArg Prod.fst heq
    have x2 : ρ t.2.1 = ρ t'.2.1 := congrArg (fun z => z.2.1) heq
    have x3 : ρ t.2.2 = ρ t'.2.2 := congrArg (fun z => z.2.2) heq
    exact Prod.ext (hρinj _ _ c1 d1 x1) (Prod.ext (hρinj _ _ c2 d2 x2) (hρinj _ _ c3 d3 x3))
  have hfit' : ∀ v, ∀ L : List (Nat × Nat × Nat), L.Nodup → (∀ t ∈ L, t.2.1 = v ∧ IsTriangle blobs.flatten t) →
      L.length ≤ IMAX := by
    intro v L hL hLt
    rw [← List.length_map (f := τ)]
    refine hfit (ρ v) (L.map τ) (hL.map_on fun t ht t' ht' => hτinj t (hLt t ht).2 t' (hLt t' ht').2) ?_
    intro t ht
    obtain ⟨t', h', rfl⟩ := List.mem_map.1 ht
    exact ⟨by show ρ t'.2.1 = _; rw [(hLt t' h').1], htri t' (hLt t' h').2⟩
  obtain ⟨out, G, G', total, tris, a1, a2, a3, a4, a5, a6⟩ :=
    triangles_are_counted c hn le hsA hsT hd m1 hin hsim hfit' e1 e2 tmp fuel hf
  refine ⟨fs, G, G', total, tris.map τ, π, k1, rfl, by rw [m3, a1]; rfl, a2,
    a3.map_on fun t ht t' ht' => hτinj t ((a4 t).1 ht) t' ((a4 t').1 ht'), fun t => ?_, by rw [List.length_map]; exact a5, p1, p2, ?_⟩
  · constructor
    · intro ht
      obtain ⟨t', h', rfl⟩ := List.mem_map.1 ht
      exact htri t' ((a4 t').1 h')
    · intro ht
      obtain ⟨q1, q2⟩ := hcl t ht
      exact List.mem_map.2 ⟨σ t, (a4 _).2 q1, q2⟩
  · intro v v1 v2
    have hs := hρσ v v1 v2
    obtain ⟨o', b1, b2⟩ := a6 (π v).toNat hs.1 hs.2
    refine ⟨o', b1, fun r hr => ?_⟩
    obtain ⟨id, nb, b3⟩ := b2 r hr
    refine ⟨id, nb, ?_⟩
    rw [b3]
    have hcount : (tris.map τ).countP (fun t => t.2.1 = v) = tris.countP (fun t => t.2.1 = (π v).toNat) := by
      rw [List.countP_map]
      refine List.countP_congr fun t ht => ?_
      have := (hrange t ((a4 t).1 ht)).2.1
      have e := r1 v v1 (by omega)
      show decide (ρ t.2.1 = v) = true ↔ decide (t.2.1 = (π v).toNat) = true
      rw [decide_eq_true_iff, decide_eq_true_iff]
      constructor
      · intro h'
        exact hρinj _ _ this hs (by rw [h', e])
      · intro h'
        rw [h', e]
    rw [hcount]

end

/-! ### Samples -/

theorem uintConv_readsAs : ReadsAs uintConv BitVec.toInt := by
  intro v
  have hlt := v.isLt
  have hm : (v.toInt % 4294967296).toNat = v.toNat := by
    rw [BitVec.toInt_eq_toNat_cond]
    split <;> omega
  refine ⟨?_, ?_⟩
  · show encInt v.toInt = intBin.enc v
    unfold encInt
    simp only [hm]
    rfl
  · unfold IsInt32
    rw [BitVec.toInt_eq_toNat_cond]
    split <;> omega

/-- The file `in`: a 5 by 4 matrix with a self loop, an edge in both directions, a duplicate with another weight, and a triangle. -/
def pipeList : EdgeList (BitVec 32) :=
  EdgeList.ofList ⟨0, 0, 0⟩ 5 4 [⟨1, 2, 10⟩, ⟨3, 3, 11⟩, ⟨4, 2, 12⟩, ⟨2, 4, 13⟩, ⟨1, 2, 14⟩, ⟨4, 1, 3⟩]

theorem pipeList_edges : pipeList.list = [⟨1, 2, 10⟩, ⟨3, 3, 11⟩, ⟨4, 2, 12⟩, ⟨2, 4, 13⟩, ⟨1, 2, 14⟩, ⟨4, 1, 3⟩] :=
  EdgeList.ofList_list ..

/-- Its bytes. -/
def pipeBytes : List Nat := (writeBin intBin true true pipeList).getD []

/-- The files by name. -/
def pipeFiles : Str → WeightType → InFiles (BitVec 32) := fun _ _ => ⟨[pipeBytes], [], []⟩

/-- `--inputformat=0 in …flags… out` -/
def pipeItems (more : List Item) : List Item :=
  [.equals (.inputformat 0) "0".toList, .file "in".toList] ++ more ++ [.file "out".toList]

theorem pipeRun (more : List Item) (hg : ∀ it ∈ more, it.Good) (hf : more.filterMap Item.file? = [])
    (ho : let o := readOptions (Setting.inputformat 0 :: more.filterMap Item.setting?)
      (o.inputformat = 0 ∧ o.inputheader = 1 ∧ o.inputedgeweights = 1 ∧ o.nvertices = 0) ∧
      (¬ (o.uppertriangular = 1 ∧ o.bidirectional = 1) ∧ o.nsplits = 1) ∧ (o.selfloops = 0 ∨ o.selfloops = 1) ∧
      o.edgeweighttype = 0 ∧ o.outputformat = 0 ∧ o.outputheader = 1 ∧ (o.outputedgeweights = 1 ∨ o.outputedgeweights = 3)) :
    ConvertRun (T := fun _ => BitVec 32) (fun _ => uintConv) (fun _ => convEnvSample) pipeFiles (pipeItems more) none "in".toList
      "out".toList uintText 1 (readOptions (Setting.inputformat 0 :: more.filterMap Item.setting?)) 5 pipeList.list := by
  obtain ⟨h1, h2, h3, h4, h5, h6, h7⟩ := ho
  exact
    { good := by
        intro it hit
        unfold pipeItems at hit
        rcases List.mem_append.1 hit with hit | hit
        · rcases List.mem_append.1 hit with hit | hit
          · rcases List.mem_cons.1 hit with rfl | hit
            · exact ⟨0, rfl, ⟨[0], by decide, by decide, by decide, .inl ⟨rfl, rfl⟩⟩, by decide, by decide⟩
            · rw [List.mem_singleton] at hit
              subst hit
              show List.head? _ ≠ _
              decide
          · exact hg it hit
        · rw [List.mem_singleton] at hit
          subst hit
          show List.head? _ ≠ _
          decide
      names := by
        unfold pipeItems
        rw [List.filterMap_append, List.filterMap_append, hf]
        rfl
      options := by
        unfold pipeItems
        rw [List.filterMap_append, List.filterMap_append,
          show [Item.file "out".toList].filterMap Item.setting? = [] from rfl, List.append_nil]
        rfl
      compatible := ⟨h2.1, by rw [h1.2.2.1]; omega, h2.2⟩
      loops := h3
      type := h4
      format := h5
      header := h6
      weights := h7
      circumstances := convSampleOf (L := pipeList) (by decide +kernel) (EdgeList.ofList_wf ..) (by show IsInt32 5; unfold IsInt32; decide)
        (by show IsInt32 4; unfold IsInt32; decide) (by decide) ⟨by decide, by unfold IMAX; decide⟩
        (by rw [pipeList_edges]; unfold IdsWithin; decide) (by rw [pipeList_edges]; unfold IsInt32; decide)
        (by rw [pipeList_edges]; unfold IMAX; decide) _ ⟨h1, .inl h5⟩ }

/-- Breadth-first search in the undirected graph, on three ranks although the converter ran on two. -/
example : ∃ fs G G', ∃ reached : List Nat,
    runConverter (T := fun _ => BitVec 32) (fun _ => uintConv) (fun _ => convEnvSample) pipeFiles
      ["--inputformat=0".toList, "in".toList, "--bidirectional".toList, "out".toList] =
      some (some ("out".toList, .done .uint (.bin fs))) ∧
    sourceArgs ["out".toList, "2".toList] = some (some ("out".toList, 2)) ∧
    Graph.readMTX (LoadEnv.sample BfsV.new 0) signedBin 2 3 (fun _ _ => ⟨0, 0, 0⟩) fs = some G ∧
    runBfs (.sample 77#64 78#64 ⟨3#32, 4#64, 5#64⟩) (fun _ _ _ => some 9) 2 G 5 = some (.done (G', some (reached.length : Int))) ∧
    reached.Nodup ∧ ∀ v, v ∈ reached ↔ Reachable (arcsOf true pipeList.list) 2 v := by
  obtain ⟨fs, G, G', reached, h1, h2, h3, h4, h5, h6, _⟩ :=
    convert_then_bfs (pipeRun [.flag .bidirectional] (by intro it h; rw [List.mem_singleton] at h; subst h; rfl) rfl (by decide))
      uintConv_readsAs (by decide) (by decide) (nrank := 3) (threads := 2) ⟨by decide, by decide, by decide, by decide⟩ (by decide)
      (LoadEnv.sample BfsV.new 0) Sorts.ins_ok Sorts.ins_ok rfl (fun _ _ => ⟨0, 0, 0⟩) (.sample 77#64 78#64 ⟨3#32, 4#64, 5#64⟩)
      (fun _ _ _ => some 9) (src := 2) (by decide) (by decide) (w := "2".toList) ⟨[2], by decide, by decide, .inl ⟨rfl, rfl⟩⟩ 5
      (by decide) (by decide)
  exact ⟨fs, G, G', reached, h1, h2, h3, h4, h5, h6⟩

/-- The duplicate with the smaller weight counts if duplicates are kept. -/
example : ∃ fs G G', ∃ reached : List Nat,
    runConverter (T := fun _ => BitVec 32) (fun _ => uintConv) (fun _ => convEnvSample) pipeFiles
      ["--inputformat=0".toList, "in".toList, "--duplicatededges=1".toList, "out".toList] =
      some (some ("out".toList, .done .uint (.bin fs))) ∧
    Graph.readMTX (LoadEnv.sample SsspV.new 0) signedBin 2 3 (fun _ _ => ⟨0, 0, 0⟩) fs = some G ∧
    runSssp (.sample 77#32 78#32 ⟨3#32⟩) (fun _ _ _ => some 9) 1 G 5 = some (.done (G', some (reached.length : Int))) ∧
    ∀ v, v ∈ reached ↔ Reachable (pipeList.list.map (Edge.mapVal BitVec.toInt)) 1 v := by
  obtain ⟨fs, G, G', reached, h1, h2, h3, h4, h5, h6, _⟩ :=
    convert_then_sssp (pipeRun [.equals (.duplicatededges 1) "1".toList] (by
        intro it h; rw [List.mem_singleton] at h; subst h
        exact ⟨1, rfl, ⟨[1], by decide, by decide, by decide, .inl ⟨rfl, rfl⟩⟩, by decide, by decide⟩) rfl (by decide))
      uintConv_readsAs (by decide) (by decide) (by decide) (.inl (by decide)) (nrank := 3) (threads := 2)
      ⟨by decide, by decide, by decide, by decide⟩ (by decide)
      (LoadEnv.sample SsspV.new 0) Sorts.ins_ok Sorts.ins_ok rfl (fun _ _ => ⟨0, 0, 0⟩) (.sample 77#32 78#32 ⟨3#32⟩)
      (fun _ _ _ => some 9) (src := 1) (by decide) (by decide) (w := "1".toList) ⟨[1], by decide, by decide, .inl ⟨rfl, rfl⟩⟩
      rfl (by
        have hval : ∀ e ∈ pipeList.list.map (Edge.mapVal BitVec.toInt), 0 ≤ e.val ∧ e.val.toNat ≤ 14 := by
          rw [pipeList_edges]; decide
        exact NoOverflow.of_bound (fun e he => (hval e he).1) (fun e he => (hval e he).2) (by decide)) 5 (by decide) (by decide)
  exact ⟨fs, G, G', reached, h1, h3, h4, h6⟩

/-- The triangle 1, 2, 4 is counted, with ids renumbered. -/
example : ∃ fs G G' total,
    runConverter (T := fun _ => BitVec 32) (fun _ => uintConv) (fun _ => convEnvSample) pipeFiles
      ["--inputformat=0".toList, "in".toList, "--uppertriangular".toList, "--randomizeID".toList, "out".toList] =
      some (some ("out".toList, .done .uint (.bin fs))) ∧
    Graph.readMTX (LoadEnv.sample (TcV.new 7) 0) signedBin 2 3 (fun _ _ => ⟨0, 0, 0⟩) fs = some G ∧
    runTriangles (.sample 5 [6] ⟨3, some 9, [4]⟩) (.sample ⟨3, some 9, [4]⟩ (some 8) ⟨3, some 9, [4]⟩) (fun _ _ _ => 55) G 1 =
      some (.done (G', total)) ∧ 1 ≤ total.toNat := by
  have hadj : ∀ a b, Adjacent pipeList.list a b → a < 6 ∧ b < 6 := by
    have : ∀ e ∈ pipeList.list, e.src < 6 ∧ e.dst < 6 := by rw [pipeList_edges]; decide
    rintro a b (⟨e, h1, h2, h3⟩ | ⟨e, h1, h2, h3⟩)
    · have := this e h1; omega
    · have := this e h1; omega
  obtain ⟨fs, G, G', total, tris, π, h1, h2, h3, h4, h5, h6, h7, _⟩ :=
    convert_then_count (pipeRun [.flag .uppertriangular, .flag .randomizeID] (by
        intro it h
        simp only [List.mem_cons, List.not_mem_nil, or_false] at h
        rcases h with rfl | rfl <;> rfl) rfl (by decide))
      uintConv_readsAs (by decide) (by decide) (by decide) (nrank := 3) (threads := 2) ⟨by decide, by decide, by decide, by decide⟩
      (by decide) (LoadEnv.sample (TcV.new 7) 0) Sorts.ins_ok Sorts.ins_ok rfl (fun _ _ => ⟨0, 0, 0⟩) (by
        intro v L hL hLt
        have hsub : L ⊆ (List.range 6).flatMap (fun a => (List.range 6).flatMap (fun b => (List.range 6).map (fun c => (a, b, c)))) := by
          rintro ⟨a, b, c⟩ ht
          obtain ⟨_, _, _, k1, k2, _⟩ := hLt _ ht
          have k1 := hadj _ _ k1
          have k2 := hadj _ _ k2
          simp only [List.mem_flatMap, List.mem_range, List.mem_map]
          exact ⟨a, k1.1, b, k1.2, c, k2.2, rfl⟩
        exact Nat.le_trans (List.subperm_of_subset hL hsub).length_le (by decide +kernel))
      (.sample 5 [6] ⟨3, some 9, [4]⟩) (.sample ⟨3, some 9, [4]⟩ (some 8) ⟨3, some 9, [4]⟩) (fun _ _ _ => 55) 1 (by decide)
  refine ⟨fs, G, G', total, h1, h3, h4, ?_⟩
  have : (1, 2, 4) ∈ tris := (h6 _).2 (by
    have : ∀ a b : Nat, (∃ e ∈ pipeList.list, e.src = (a : Int) ∧ e.dst = (b : Int)) → HasEdge pipeList.list a b := fun _ _ h => h
    refine ⟨by decide, by decide, .inl (this _ _ ?_), .inl (this _ _ ?_), .inr (this _ _ ?_)⟩ <;> rw [pipeList_edges] <;> decide)
  rw [h7]
  exact List.length_pos_of_mem this

/-- Test: converter and triangle counting, computed. -/
example : (runConverter (T := fun _ => BitVec 32) (fun _ => uintConv) (fun _ => convEnvSample) pipeFiles
    ["--inputformat=0".toList, "in".toList, "--uppertriangular".toList, "out".toList]).bind (fun r => match r with
      | some (_, .done _ (.bin fs)) => (Graph.readMTX (LoadEnv.sample (TcV.new 7) 0) signedBin 1 1 (fun _ _ => ⟨0, 0, 0⟩) fs).bind
          (fun G => (runTriangles (.sample 5 [6] ⟨3, some 9, [4]⟩) (.sample ⟨3, some 9, [4]⟩ (some 8) ⟨3, some 9, [4]⟩)
            (fun _ _ _ => 55) G 1).bind (fun q => match q with
              | .done (_, total) => some total.toNat
              | .more _ => none))
      | _ => none) = some 1 := by
  decide +kernel

end GraphMat

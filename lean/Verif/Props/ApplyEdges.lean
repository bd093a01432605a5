import Verif.Lemmas.ApplyEdges
import Verif.Props.Superstep
import Verif.Props.Load

/-!
# `applyToAllEdges`

C08: every edge gets its new value exactly once, computed from its own old value and the properties of
its source and destination, in both stored orientations.
-/
namespace GraphMat

variable {V E : Type}

/-- What `applyToAllEdges(fn)` has to do to the list of edges (user ids) when the vertex properties are
`P`. -/
def edgesAfter (fn : E → V → V → E) (P : Nat → V) (es : List (Edge E)) : List (Edge E) :=
  es.map (fun e => ⟨e.src, e.dst, fn e.val (P e.src.toNat) (P e.dst.toNat)⟩)

/-- Applying a function to the edges of a graph, whatever its active set is. -/
theorem Graph.Holds.applyToAllEdges {n nrank threads : Nat} (c : Cfg n nrank threads) {G : Graph V E}
    {es : List (Edge E)} {P : Nat → V} {TA TT : Nat → Nat → Tile E} {PA PT : Nat → Nat → Nat → List (Col E)} (hv : ∀ e ∈ es, e.Valid n)
    (hh : G.Holds n nrank threads TA TT PA PT (es.map (nativeEdge (threads * 16 * nrank) n))) (hp : G.toVGraph.Props n nrank threads P)
    (ser : Bool) (g1 g2 : Nat → Nat → Fresh V) (fn : E → V → V → E) :
    ∃ G' Ls nat T2 T1 P2 P1, G.applyToAllEdges ser g1 g2 fn = some G' ∧
      (List.range nrank).mapM (fun r => G'.getEdgelist r) = some Ls ∧
      Ls.flatten.Perm (edgesAfter fn P es) ∧
      renumber threads nrank n (edgesAfter fn P es) = some nat ∧
      StoredOnce n nrank G'.A nat ∧
      StoredOnce n nrank G'.AT (nat.map (fun e => { src := e.dst, dst := e.src, val := e.val })) ∧
      (∀ e ∈ edgesAfter fn P es, e.Valid n) ∧
      G'.Holds n nrank threads T2 T1 P2 P1 ((edgesAfter fn P es).map (nativeEdge (threads * 16 * nrank) n)) ∧
      G'.toVGraph.Props n nrank threads P ∧ G'.active = G.active := by
  have how : ∀ i j, own2d nrank i j < nrank := fun i j => (own2d_spec c.rpos i j).2
  let vm : Nat → V := fun w => P (n2v (threads * 16 * nrank) n w)
  have hvm : ∀ w, 1 ≤ w → w ≤ n → G.vp.sem n nrank nrank w = some (vm w) := by
    intro w h1 h2
    exact userSem_native c (f := fun v => some (P v)) hp h1 h2
  obtain ⟨D1, v1, T1, P1, a1, a2, a3, a4, a5⟩ := DMat.applyEdges_spec hh.AT c.rpos c.rpos how c.tpos ser g1
    hh.inv.vp hvm fn
  obtain ⟨D2, v2, T2, P2, b1, b2, b3, b4, b5⟩ := DMat.applyEdges_spec hh.A c.rpos c.rpos how c.tpos ser g2
    a3 (vm := vm) (by intro w h1 h2; rw [a5]; exact hvm w h1 h2) (fun e src dst => fn e dst src)
  have hvalid : ∀ e ∈ edgesAfter fn P es, e.Valid n := by
    intro e he
    unfold edgesAfter at he
    rw [List.mem_map] at he
    obtain ⟨e0, h0, rfl⟩ := he
    exact hv e0 h0
  have hmv : ∀ e ∈ es, P (n2v (threads * 16 * nrank) n (v2n (threads * 16 * nrank) n e.src.toNat)) = P e.src.toNat ∧
      P (n2v (threads * 16 * nrank) n (v2n (threads * 16 * nrank) n e.dst.toNat)) = P e.dst.toNat := by
    intro e he
    obtain ⟨k1, k2, k3, k4⟩ := hv e he
    rw [n2v_v2n c.nppos (by omega), n2v_v2n c.nppos (by omega)]
    exact ⟨rfl, rfl⟩
  have hA : (es.map (nativeEdge (threads * 16 * nrank) n)).map (mapEdge (fun e src dst => fn e dst src) vm) =
      (edgesAfter fn P es).map (nativeEdge (threads * 16 * nrank) n) := by
    unfold edgesAfter
    rw [List.map_map, List.map_map]
    apply List.map_congr_left
    intro e he
    simp only [Function.comp, mapEdge, nativeEdge, vm, Int.toNat_natCast]
    rw [(hmv e he).1, (hmv e he).2]
  have hAT : ((es.map (nativeEdge (threads * 16 * nrank) n)).map swapEdge).map (mapEdge fn vm) =
      ((edgesAfter fn P es).map (nativeEdge (threads * 16 * nrank) n)).map swapEdge := by
    unfold edgesAfter
    rw [List.map_map, List.map_map, List.map_map, List.map_map]
    apply List.map_congr_left
    intro e he
    simp only [Function.comp, mapEdge, nativeEdge, swapEdge, vm, Int.toNat_natCast]
    rw [(hmv e he).1, (hmv e he).2]
  rw [hA] at b2
  rw [hAT] at a2
  have hG : G.applyToAllEdges ser g1 g2 fn = some { G with AT := D1, A := D2, vp := v2 } := by
    unfold Graph.applyToAllEdges
    simp only [Option.bind_eq_bind]
    rw [hh.inv.ht, hh.inv.hr, a1, Option.bind_some, b1, Option.bind_some]
  have hH : ({ G with AT := D1, A := D2, vp := v2 } : Graph V E).Holds n nrank threads T2 T1 P2 P1
      ((edgesAfter fn P es).map (nativeEdge (threads * 16 * nrank) n)) :=
    ⟨⟨hh.inv.hn, hh.inv.hr, hh.inv.ht, b3, b4 (a4 hh.inv.vpReady), hh.inv.act, hh.inv.actReady⟩, b2, a2⟩
  obtain ⟨Ls, l1, l2⟩ := hH.getEdgelists c hvalid
  refine ⟨_, Ls, _, T2, T1, P2, P1, hG, l1, l2, renumber_spec c hvalid, b2.storedOnce c.rpos how, a2.storedOnce c.rpos how,
    hvalid, hH, ?_, rfl⟩
  intro v k1 k2
  show userSem n nrank threads v2 v = _
  rw [← hp v k1 k2]
  unfold userSem
  rw [b5, a5]

/-- C08: for every graph the interface can build (edges `es`, duplicates and self loops allowed, properties
`P`, active set `A`, any number of ranks and threads), `applyToAllEdges` succeeds.  Afterwards the lists the
ranks get from `getEdgelist` are together a permutation of the edges with their new values; both stored
matrices hold exactly these edges, each in one tile on one rank; and the graph behaves in every later
operation as the graph of the new edges with unchanged properties and activity. -/
theorem apply_to_all_edges {n nrank threads : Nat} (c : Cfg n nrank threads) {G : Graph V E}
    {es : List (Edge E)} {P : Nat → V} {A : Nat → Bool} (h : G.Represents n nrank threads es P A)
    (ser : Bool) (g1 g2 : Nat → Nat → Fresh V) (fn : E → V → V → E) :
    ∃ G' Ls nat, G.applyToAllEdges ser g1 g2 fn = some G' ∧
      (List.range nrank).mapM (fun r => G'.getEdgelist r) = some Ls ∧
      Ls.flatten.Perm (edgesAfter fn P es) ∧
      renumber threads nrank n (edgesAfter fn P es) = some nat ∧
      StoredOnce n nrank G'.A nat ∧
      StoredOnce n nrank G'.AT (nat.map (fun e => { src := e.dst, dst := e.src, val := e.val })) ∧
      G'.Represents n nrank threads (edgesAfter fn P es) P A := by
  obtain ⟨TA, TT, PA, PT, hv, hh, hp, ha⟩ := h
  obtain ⟨G', Ls, nat, T2, T1, P2, P1, h1, h2, h3, h4, h5, h6, h7, h8, h9, h10⟩ := hh.applyToAllEdges c hv hp ser g1 g2 fn
  refine ⟨G', Ls, nat, h1, h2, h3, h4, h5, h6, T2, T1, P2, P1, h7, h8, h9, ?_⟩
  intro v k1 k2
  rw [h10]
  exact ha v k1 k2

/-- A concrete case: a graph with 40 vertices on 2 ranks, with a duplicate edge and a self loop, whose
properties were set. -/
example : ∃ (out : List (List (Edge Nat))) (G : Graph Nat Nat) (vg : VGraph Nat) (P : Nat → Nat) (A : Nat → Bool),
    Graph.readEdgelist (LoadEnv.sample (V := Nat) (E := Nat) 0 0) 1 2 40 40
      [[⟨2, 1, 5⟩, ⟨40, 2, 6⟩, ⟨2, 1, 5⟩, ⟨7, 7, 8⟩], [⟨1, 39, 9⟩]] = some (out, G) ∧
    ({ G with toVGraph := vg } : Graph Nat Nat).Represents 40 2 1
      [⟨2, 1, 5⟩, ⟨40, 2, 6⟩, ⟨2, 1, 5⟩, ⟨7, 7, 8⟩, ⟨1, 39, 9⟩] P A ∧ P 7 = 100 ∧ P 40 = 1 := by
  obtain ⟨out, G, vg, h1, _, h2⟩ := Graph.load_represents (n := 40) (nrank := 2) (threads := 1)
    ⟨by decide, by decide, by decide, by decide⟩ (LoadEnv.sample (V := Nat) (E := Nat) 0 0) Sorts.ins_ok Sorts.ins_ok
    (d := 0) rfl (blobs := [[⟨2, 1, 5⟩, ⟨40, 2, 6⟩, ⟨2, 1, 5⟩, ⟨7, 7, 8⟩], [⟨1, 39, 9⟩]]) rfl (by
      intro es hes e he
      simp at hes
      rcases hes with rfl | rfl <;> simp at he
      · rcases he with rfl | rfl | rfl | rfl <;> simp [Edge.Valid]
      · subst he; simp [Edge.Valid])
    (fun _ _ _ => ⟨0, fun _ => 0, fun _ => 0, fun _ => 0, fun _ => 0⟩)
    (fun _ _ _ => ⟨0, fun _ => false, fun _ => 0, fun _ => false, fun _ => 0⟩)
    (ops := [.setAllProp 1, .setProp 7 100, .setAllActive]) (by
      intro op hop
      simp at hop
      rcases hop with rfl | rfl | rfl <;> simp [VOp.Valid]) ⟨.setAllActive, by simp, trivial⟩ (fun _ => false)
  exact ⟨out, G, vg, _, _, h1, h2, rfl, rfl⟩

/-- Evaluated: every value becomes ten times the old one plus the difference of the properties (initially
0; vertex 2 is given 3).  Read from `A`, and from `AT` with the ends exchanged. -/
example : ((Graph.readEdgelist (LoadEnv.sample (V := Int) (E := Int) 0 0) 1 1 20 20
      [[⟨2, 1, 5⟩, ⟨19, 2, 6⟩, ⟨2, 1, 5⟩, ⟨7, 7, 8⟩]]).bind (fun x =>
    (x.2.onVertices (VGraph.setVertexproperty (fun _ => ⟨0, fun _ => 0, fun _ => 0, fun _ => 0, fun _ => 0⟩) 2 3)).bind
    (fun G => (G.applyToAllEdges false (fun _ _ => ⟨0, fun _ => 0, fun _ => 0, fun _ => 0, fun _ => 0⟩)
        (fun _ _ => ⟨0, fun _ => 0, fun _ => 0, fun _ => 0, fun _ => 0⟩) (fun e s d => 10 * e + s - d)).bind
      (fun G => (G.getEdgelist 0).bind (fun a => (({ G with A := G.AT } : Graph Int Int).getEdgelist 0).map (fun b => (a, b))))))) =
    some ([⟨2, 1, 53⟩, ⟨2, 1, 53⟩, ⟨19, 2, 57⟩, ⟨7, 7, 80⟩], [⟨1, 2, 53⟩, ⟨1, 2, 53⟩, ⟨7, 7, 80⟩, ⟨2, 19, 57⟩]) := by
  decide +kernel

end GraphMat

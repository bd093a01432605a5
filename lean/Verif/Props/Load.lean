import Verif.Lemmas.Runtime
import Verif.Spec.Sorting

/-!
# Loading a graph

C06 (the edge list survives loading), C07 (every edge is stored exactly once per orientation), C46
(the caller's array is modified).
-/
namespace GraphMat

variable {V E : Type}

theorem Sorts.ins_ok : (Sorts.ins (E := E)).OK :=
  ⟨fun _ => insSort_tileId, fun _ => insSort_tileId, fun _ _ _ => insSort_dcsc⟩

/-- The lists the ranks get from `getEdgelist` are together the edges the graph holds. -/
theorem Graph.Holds.getEdgelists {n nrank threads : Nat} (c : Cfg n nrank threads) {G : Graph V E}
    {TA TT : Nat → Nat → Tile E} {PA PT : Nat → Nat → Nat → List (Col E)} {es : List (Edge E)}
    (h2 : G.Holds n nrank threads TA TT PA PT (es.map (nativeEdge (threads * 16 * nrank) n)))
    (hin' : ∀ e ∈ es, InMat n n e) :
    ∃ Ls, (List.range nrank).mapM (fun r => G.getEdgelist r) = some Ls ∧ Ls.flatten.Perm es := by
  obtain ⟨a1, a2⟩ := h2.A.allEdges c.rpos c.rpos (fun i j => (own2d_spec c.rpos i j).2)
  let back : Edge E → Edge E := fun e =>
    { src := (n2v (threads * 16 * nrank) n e.src.toNat : Nat), dst := (n2v (threads * 16 * nrank) n e.dst.toNat : Nat), val := e.val }
  have hmem : ∀ r, r < nrank → ∀ e ∈ rankEdges n n nrank nrank (own2d nrank) TA PA r, InMat n n e := by
    intro r hr e he
    apply h2.A.inMat
    apply a2.mem_iff.mp
    rw [List.mem_flatten]
    exact ⟨_, List.mem_map.mpr ⟨r, List.mem_range.mpr hr, rfl⟩, he⟩
  refine ⟨(List.range nrank).map (fun r => (rankEdges n n nrank nrank (own2d nrank) TA PA r).map back), ?_, ?_⟩
  · apply mapM_some
    intro r hr
    rw [List.mem_range] at hr
    unfold Graph.getEdgelist
    have : G.A[r]? = some (matOf n n nrank nrank nrank (own2d nrank) TA r) := by
      rw [h2.A.mat]; simp [hr]
    rw [this]
    simp only [Option.bind_eq_bind, Option.bind_some]
    rw [h2.A.getEdges c.rpos c.rpos r]
    simp only [Option.bind_some]
    apply mapM_some
    intro e he
    obtain ⟨b1, b2, b3, b4⟩ := hmem r hr e he
    obtain ⟨s, hs⟩ : ∃ s : Nat, e.src = s := ⟨e.src.toNat, by omega⟩
    obtain ⟨d, hd⟩ : ∃ d : Nat, e.dst = d := ⟨e.dst.toNat, by omega⟩
    simp only [back]
    rw [h2.inv.hn, h2.inv.hr, h2.inv.ht]
    rw [hs] at b1 b2 ⊢
    rw [hd] at b3 b4 ⊢
    rw [nativeToVertex_eq c.tpos c.rpos c.np c.n (by omega) (by omega),
      nativeToVertex_eq c.tpos c.rpos c.np c.n (by omega) (by omega)]
    rfl
  · have e1 : ((List.range nrank).map (fun r => (rankEdges n n nrank nrank (own2d nrank) TA PA r).map back)).flatten =
        ((List.range nrank).map (rankEdges n n nrank nrank (own2d nrank) TA PA)).flatten.map back := by
      rw [List.map_flatten, List.map_map]; rfl
    rw [e1]
    refine (a2.map back).trans ?_
    rw [List.map_map, map_id_of]
    intro e he
    obtain ⟨b1, b2, b3, b4⟩ := hin' e he
    obtain ⟨s, hs⟩ : ∃ s : Nat, e.src = s := ⟨e.src.toNat, by omega⟩
    obtain ⟨d, hd⟩ : ∃ d : Nat, e.dst = d := ⟨e.dst.toNat, by omega⟩
    cases e with
    | mk s' d' v =>
      simp only at hs hd
      subst hs hd
      simp only at b1 b3
      simp only [back, Function.comp, nativeEdge, Int.toNat_natCast]
      rw [n2v_v2n c.nppos (by omega), n2v_v2n c.nppos (by omega)]

/-- C06: for every configuration, every way of dividing the edges among the ranks and every behaviour
of the sorting library, loading succeeds, and the lists the ranks then get from `getEdgelist` are
together a permutation of the edges passed in: same ends, same value, duplicates kept. -/
theorem edgelist_survives_loading {n nrank threads : Nat} (c : Cfg n nrank threads) (env : LoadEnv V E)
    (hsA : env.sA.OK) (hsT : env.sAT.OK) (blobs : List (List (Edge E))) (hb : blobs.length = nrank)
    (hin : ∀ es ∈ blobs, ∀ e ∈ es, e.Valid n) :
    ∃ out G Ls, Graph.readEdgelist env threads nrank n n blobs = some (out, G) ∧
      (List.range nrank).mapM (fun r => G.getEdgelist r) = some Ls ∧
      Ls.flatten.Perm blobs.flatten := by
  have hin' : ∀ e ∈ blobs.flatten, InMat n n e := by
    intro e he
    rw [List.mem_flatten] at he
    obtain ⟨es, h1, h2⟩ := he
    exact hin es h1 e h2
  obtain ⟨out, G, TA, TT, PA, PT, h1, h2, _⟩ := Graph.readEdgelist_spec c env hsA hsT hb hin'
  obtain ⟨Ls, h3, h4⟩ := h2.getEdgelists c hin'
  exact ⟨out, G, Ls, h1, h3, h4⟩

/-- A concrete load: 40 vertices on 2 ranks with one thread, five edges with a duplicate and a self
loop, unevenly divided. -/
example : Cfg 40 2 1 ∧ (LoadEnv.sample (V := Nat) (E := Nat) 0 0).sA.OK ∧
    (∀ es ∈ ([[⟨2, 1, 5⟩, ⟨40, 2, 6⟩, ⟨2, 1, 5⟩, ⟨7, 7, 8⟩], [⟨1, 39, 9⟩]] : List (List (Edge Nat))),
      ∀ e ∈ es, e.Valid 40) := by
  refine ⟨⟨by decide, by decide, by decide, by decide⟩, Sorts.ins_ok, ?_⟩
  intro es hes e he
  simp at hes
  rcases hes with rfl | rfl <;> simp at he
  · rcases he with rfl | rfl | rfl | rfl <;> simp [Edge.Valid]
  · subst he; simp [Edge.Valid]

/-- Evaluated: what rank 0 gets back. -/
example : ((Graph.readEdgelist (LoadEnv.sample (V := Nat) (E := Nat) 0 0) 1 1 20 20
    [[⟨2, 1, 5⟩, ⟨19, 2, 6⟩, ⟨2, 1, 5⟩, ⟨7, 7, 8⟩]]).bind (fun x => x.2.getEdgelist 0)) =
    some [⟨2, 1, 5⟩, ⟨2, 1, 5⟩, ⟨19, 2, 6⟩, ⟨7, 7, 8⟩] := by
  decide

/-- The edges of the distributed matrix `D` (one object per rank) of an `n` by `n` matrix are `es`,
each stored in exactly one tile, each tile existing on exactly one rank: `B i j` are the edges
`get_edges` reads from tile `(i, j)`. -/
def StoredOnce (n nrank : Nat) (D : DMat E) (es : List (Edge E)) : Prop :=
  ∃ (B : Nat → Nat → List (Edge E)) (o : Nat → Nat → Nat),
    (∀ i j, i < nrank → j < nrank → o i j < nrank ∧ ∃ t y x,
      (startIds n nrank)[i]? = some y ∧ (startIds n nrank)[j]? = some x ∧
      t.getEdges y x = some (B i j) ∧
      ∀ r, r < nrank → ∃ M, D[r]? = some M ∧ M.tiles i j = if r = o i j then some t else none) ∧
    ((List.range nrank).flatMap (fun i => (List.range nrank).flatMap (fun j => B i j))).Perm es ∧
    ∀ i j i' j' e, i < nrank → j < nrank → i' < nrank → j' < nrank → e ∈ B i j → e ∈ B i' j' → i = i' ∧ j = j'

theorem DMat.Rep.storedOnce {D : DMat E} {n nrank : Nat} {ow : Nat → Nat → Nat} {T : Nat → Nat → Tile E}
    {P : Nat → Nat → Nat → List (Col E)} {all : List (Edge E)} (hr : 0 < nrank)
    (how : ∀ i j, ow i j < nrank) (h : D.Rep n n nrank nrank nrank ow T P all) : StoredOnce n nrank D all := by
  refine ⟨fun i j => tileEdges (bnd n nrank i) (bnd n nrank j) (T i j) (P i j), ow, ?_, ?_, ?_⟩
  · intro i j hi hj
    refine ⟨how i j, T i j, bnd n nrank i, bnd n nrank j, startIds_get (by omega), startIds_get (by omega),
      (h.tile i j hi hj).1.getEdges _ _, ?_⟩
    intro r hr
    refine ⟨matOf n n nrank nrank nrank ow T r, by rw [h.mat]; simp [hr], ?_⟩
    simp only [matOf]
    by_cases e : r = ow i j
    · rw [if_pos e, if_pos ⟨hi, hj, e.symm⟩]
    · rw [if_neg e, if_neg (fun h => e h.2.2.symm)]
  · have e1 : (List.range nrank).flatMap (fun i => (List.range nrank).flatMap (fun j =>
        tileEdges (bnd n nrank i) (bnd n nrank j) (T i j) (P i j))) =
        (cells nrank nrank).flatMap (fun x => tileEdges (bnd n nrank x.1) (bnd n nrank x.2) (T x.1 x.2) (P x.1 x.2)) := by
      unfold cells
      rw [List.flatMap_assoc]
      apply flatMap_ext
      intro i _
      rw [List.flatMap_map]
    rw [e1]
    refine (flatMap_perm (g := fun x => all.filter (fun e => decide (tileOf n n nrank nrank e = x))) ?_).trans ?_
    · intro x hx
      rw [mem_cells] at hx
      exact tileEdges_perm hr hr h.inMat (h.tile x.1 x.2 hx.1 hx.2)
    · refine bucket_perm _ _ (nodup_cells _ _) _ ?_
      intro e he
      have := tileOf_spec hr hr (h.inMat e he)
      exact mem_cells.mpr ⟨this.2.1, this.2.2.1⟩
  · intro i j i' j' e hi hj hi' hj' h1 h2
    have a1 := (tileEdges_perm hr hr h.inMat (h.tile i j hi hj)).mem_iff.mp h1
    have a2 := (tileEdges_perm hr hr h.inMat (h.tile i' j' hi' hj')).mem_iff.mp h2
    have b1 := (List.mem_filter.mp a1).2
    have b2 := (List.mem_filter.mp a2).2
    simp only [decide_eq_true_eq] at b1 b2
    rw [b1] at b2
    simpa using b2

/-- C07: after loading, the forward matrix holds every input edge (with internal ids) in exactly one
tile on exactly one rank, the transposed matrix holds every edge reversed in exactly one tile on
exactly one rank, and the number of nonzeros every rank reports is the number of input edges (if that
is below 2^32, see `DMat.getNNZ`). -/
theorem edge_stored_once {n nrank threads : Nat} (c : Cfg n nrank threads) (env : LoadEnv V E)
    (hsA : env.sA.OK) (hsT : env.sAT.OK) (blobs : List (List (Edge E))) (hb : blobs.length = nrank)
    (hin : ∀ es ∈ blobs, ∀ e ∈ es, e.Valid n) :
    ∃ out G es, Graph.readEdgelist env threads nrank n n blobs = some (out, G) ∧
      renumber threads nrank n blobs.flatten = some es ∧
      StoredOnce n nrank G.A es ∧
      StoredOnce n nrank G.AT (es.map (fun e => { src := e.dst, dst := e.src, val := e.val })) ∧
      (blobs.flatten.length < 2 ^ 32 → ∀ r, r < nrank → G.nnz[r]? = some blobs.flatten.length) := by
  have hin' : ∀ e ∈ blobs.flatten, InMat n n e := by
    intro e he
    rw [List.mem_flatten] at he
    obtain ⟨es, h1, h2⟩ := he
    exact hin es h1 e h2
  obtain ⟨out, G, TA, TT, PA, PT, h1, h2, h3, _⟩ := Graph.readEdgelist_spec c env hsA hsT hb hin'
  refine ⟨out, G, blobs.flatten.map (nativeEdge (threads * 16 * nrank) n), h1, renumber_spec c hin',
    h2.A.storedOnce c.rpos (fun i j => (own2d_spec c.rpos i j).2),
    h2.AT.storedOnce c.rpos (fun i j => (own2d_spec c.rpos i j).2), ?_⟩
  intro hl r hr
  rw [h3 hl]
  simp [hr]

/-- C07, any tile grid and any valid placement (`partition_fn_1d`, `partition_fn_2d`, ..): every edge is
in exactly one tile, every tile on the rank the placement names. -/
theorem edge_stored_once_any_layout {n nrank threads : Nat} (ht : 0 < threads) (hr : 0 < nrank)
    (pfn : Nat → Nat → Nat → Option Nat) (hp : ∀ tx ty, ∃ r, pfn tx ty nrank = some r ∧ r < nrank)
    (srt : Sorts E) (hs : srt.OK) (g : Nat → Nat → Nat → TileFresh E) (blobs : List (List (Edge E)))
    (hb : blobs.length = nrank) (hin : ∀ es ∈ blobs, ∀ e ∈ es, e.Valid n) :
    ∃ out D, DMat.ofEdges n n nrank nrank nrank pfn srt g threads blobs = some (out, D) ∧
      StoredOnce n nrank D blobs.flatten := by
  have how : ∀ i j, pfn j i nrank = some ((pfn j i nrank).getD 0) ∧ (pfn j i nrank).getD 0 < nrank := by
    intro i j
    obtain ⟨r, h1, h2⟩ := hp j i
    rw [h1]; exact ⟨rfl, h2⟩
  obtain ⟨out, D, T, P, h1, _, _, _, h2⟩ := DMat.ofEdges_spec (m := n) (n := n) (ntx := nrank) (nty := nrank)
    (ow := fun i j => (pfn j i nrank).getD 0) hs g ht hr hr hr (fun i j => (how i j).1) (fun i j => (how i j).2) hb (by
      intro e he
      rw [List.mem_flatten] at he
      obtain ⟨es, h1, h2⟩ := he
      exact hin es h1 e h2)
  exact ⟨out, D, h1, h2.storedOnce hr (fun i j => (how i j).2)⟩

/-- The hypotheses on the placement hold for both placements of the library. -/
example : (∀ tx ty, ∃ r, partitionFn1d tx ty 6 = some r ∧ r < 6) ∧ (∀ tx ty, ∃ r, partitionFn2d tx ty 6 = some r ∧ r < 6) :=
  ⟨fun tx ty => partitionFn1d_valid tx ty 6 (by decide), fun tx ty => partitionFn2d_valid tx ty 6 (by decide)⟩

/-- C46 is false: the caller's array of one edge `(2, 1)` of a graph with 40 vertices (one rank, one
thread) holds the edge `(3, 1)` after loading. -/
theorem caller_edges_modified :
    (Graph.readEdgelist (LoadEnv.sample (V := Nat) (E := Nat) 0 0) 1 1 40 40 [[⟨2, 1, 5⟩]]).map (·.1) =
      some [[⟨3, 1, 5⟩]] := by
  decide

/-- C46, what does hold: after loading, each rank's array is a permutation of the edges it held, with
internal ids in place of user ids (on one rank in the original order). -/
theorem caller_edges_after_load_partial {n nrank threads : Nat} (c : Cfg n nrank threads) (env : LoadEnv V E)
    (hsA : env.sA.OK) (hsT : env.sAT.OK) (blobs : List (List (Edge E))) (hb : blobs.length = nrank)
    (hin : ∀ es ∈ blobs, ∀ e ∈ es, e.Valid n) :
    ∃ out G nat, Graph.readEdgelist env threads nrank n n blobs = some (out, G) ∧
      blobs.mapM (renumber threads nrank n) = some nat ∧ out.length = nat.length ∧
      (∀ r (h1 : r < out.length) (h2 : r < nat.length), (out[r]).Perm (nat[r])) ∧
      (nrank = 1 → out = nat) := by
  have hin' : ∀ e ∈ blobs.flatten, InMat n n e := by
    intro e he
    rw [List.mem_flatten] at he
    obtain ⟨es, h1, h2⟩ := he
    exact hin es h1 e h2
  obtain ⟨out, G, TA, TT, PA, PT, h1, _, _, h4, h5, h6, _⟩ := Graph.readEdgelist_spec c env hsA hsT hb hin'
  refine ⟨out, G, blobs.map (fun es => es.map (nativeEdge (threads * 16 * nrank) n)), h1, ?_, ?_, ?_, h6⟩
  · apply mapM_some
    intro es hes
    exact renumber_spec c (hin es hes)
  · rw [h4, List.length_map, hb]
  · intro r a1 a2
    have := h5 r a1 (by simpa using a2)
    simpa using this

/-- Two ranks, three edges. -/
example : ∃ out G nat, Graph.readEdgelist (LoadEnv.sample (V := Nat) (E := Nat) 0 0) 1 2 40 40
      [[⟨2, 1, 5⟩, ⟨40, 2, 6⟩], [⟨1, 39, 9⟩]] = some (out, G) ∧
    [[⟨2, 1, 5⟩, ⟨40, 2, 6⟩], [⟨1, 39, 9⟩]].mapM (renumber (E := Nat) 1 2 40) = some nat ∧ out.length = nat.length ∧
    (∀ r (h1 : r < out.length) (h2 : r < nat.length), (out[r]).Perm (nat[r])) ∧ (2 = 1 → out = nat) :=
  caller_edges_after_load_partial ⟨by decide, by decide, by decide, by decide⟩ _ Sorts.ins_ok Sorts.ins_ok _ rfl (by
    intro es hes e he
    simp at hes
    rcases hes with rfl | rfl <;> simp at he
    · rcases he with rfl | rfl <;> simp [Edge.Valid]
    · subst he; simp [Edge.Valid])

end GraphMat

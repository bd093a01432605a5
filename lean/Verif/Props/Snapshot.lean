import Verif.Lemmas.Snapshot
import Verif.Props.Load
import Verif.Lemmas.StepRel

/-!
# Snapshots of a graph (C41)
-/
namespace GraphMat

variable {E V V' : Type}

theorem DMat.Rep.tileRep {D : DMat E} {m n ntx nty nrank : Nat} {ow : Nat → Nat → Nat} {T : Nat → Nat → Tile E}
    {P : Nat → Nat → Nat → List (Col E)} {all : List (Edge E)} (h : D.Rep m n ntx nty nrank ow T P all) (r : Nat) :
    ∀ i j t, i < (matOf m n ntx nty nrank ow T r).nty → j < (matOf m n ntx nty nrank ow T r).ntx →
      (matOf m n ntx nty nrank ow T r).tiles i j = some t → ∃ P, t.Rep P := by
  intro i j t hi hj ht
  simp only [matOf] at ht
  split at ht
  · next hc =>
    injection ht with ht
    subst ht
    exact ⟨P i j, (h.tile i j hc.1 hc.2.1).1⟩
  · cases ht

/-- The files of a graph. -/
theorem Graph.Holds.writeBin {n nrank threads : Nat} {G : Graph V E} {TA TT : Nat → Nat → Tile E}
    {PA PT : Nat → Nat → Nat → List (Col E)} {all : List (Edge E)} (h : G.Holds n nrank threads TA TT PA PT all) :
    G.writeBin = some ((List.range nrank).map (fun r =>
      (matOf n n nrank nrank nrank (own2d nrank) TA r).toks (own2d nrank) ++
      ((matOf n n nrank nrank nrank (own2d nrank) TT r).toks (own2d nrank) ++ [.int threads]))) := by
  unfold Graph.writeBin
  rw [h.inv.hr, h.inv.ht]
  apply mapM_some
  intro r hr
  have hr' := List.mem_range.mp hr
  rw [h.A.mat, h.AT.mat]
  simp only [List.getElem?_map, List.getElem?_range hr', Option.map_some, Option.bind_eq_bind, Option.bind_some]
  unfold writeBinRank
  simp only [Option.bind_eq_bind]
  rw [RMat.save_spec (ow := own2d nrank) (fun _ _ _ _ => rfl) (h.A.tileRep r), Option.bind_some,
    RMat.save_spec (ow := own2d nrank) (fun _ _ _ _ => rfl) (h.AT.tileRep r), Option.bind_some]
  simp only [List.nil_append, List.append_assoc]

theorem matOf_reload {n nrank : Nat} (hr : 0 < nrank) {T : Nat → Nat → Tile E} (g : Nat → Nat → Nat → TileFresh E) (r : Nat) :
    ({ m := n, n := n, ntx := nrank, nty := nrank, nrank := nrank, myrank := r,
       node := fun i j => if i < nrank ∧ j < nrank then some (own2d nrank i j) else partitionFn2d j i nrank,
       tiles := fun i j => if i < nrank ∧ j < nrank then
         ((matOf n n nrank nrank nrank (own2d nrank) T r).tiles i j).map (fun t => t.reload (g r i j)) else none } : RMat E) =
    matOf n n nrank nrank nrank (own2d nrank) (fun i j => (T i j).reload (g (own2d nrank i j) i j)) r := by
  unfold matOf
  congr 1
  · funext i j
    split
    · rfl
    · exact (own2d_spec hr i j).1
  · funext i j
    simp only
    by_cases hij : i < nrank ∧ j < nrank
    · rw [if_pos hij]
      by_cases ho : own2d nrank i j = r
      · rw [if_pos ⟨hij.1, hij.2, ho⟩, if_pos ⟨hij.1, hij.2, ho⟩, ho]
        rfl
      · rw [if_neg (fun h => ho h.2.2), if_neg (fun h => ho h.2.2)]
        rfl
    · rw [if_neg hij, if_neg (fun h => hij ⟨h.1, h.2.1⟩)]

theorem DMat.Rep.reload {D : DMat E} {n nrank : Nat} (hr : 0 < nrank) {T : Nat → Nat → Tile E}
    {P : Nat → Nat → Nat → List (Col E)} {all : List (Edge E)} (h : D.Rep n n nrank nrank nrank (own2d nrank) T P all)
    (g : Nat → Nat → Nat → TileFresh E) (r : Nat) (ar : Archive E) :
    RMat.load (g r) nrank r ((matOf n n nrank nrank nrank (own2d nrank) T r).toks (own2d nrank) ++ ar) =
      some (matOf n n nrank nrank nrank (own2d nrank) (fun i j => (T i j).reload (g (own2d nrank i j) i j)) r, ar) := by
  rw [RMat.load_spec (h.tileRep r)]
  congr 2
  exact matOf_reload hr g r

/-- Writing and reading a graph that holds `es`. -/
theorem Graph.Holds.snapshot {n nrank threads : Nat} (c : Cfg n nrank threads) {G : Graph V E} {es : List (Edge E)}
    {TA TT : Nat → Nat → Tile E} {PA PT : Nat → Nat → Nat → List (Col E)} (hv : ∀ e ∈ es, InMat n n e)
    (hh : G.Holds n nrank threads TA TT PA PT (es.map (nativeEdge (threads * 16 * nrank) n))) (env : LoadEnv V' E) :
    ∃ files G' Ls nat, G.writeBin = some files ∧ files.length = nrank ∧
      Graph.readBin env threads nrank files = some G' ∧
      G'.n = n ∧ VGraph.create n nrank threads env.gv env.ga env.d = some G'.toVGraph ∧
      (es.length < 2 ^ 32 → G'.nnz = List.replicate nrank es.length) ∧
      (List.range nrank).mapM (fun r => G'.getEdgelist r) = some Ls ∧ Ls.flatten.Perm es ∧
      renumber threads nrank n es = some nat ∧ StoredOnce n nrank G'.A nat ∧
      StoredOnce n nrank G'.AT (nat.map (fun e => { src := e.dst, dst := e.src, val := e.val })) ∧
      ∀ d, env.d = (fun _ => d) → ∀ gv ga ops, (∀ op ∈ ops, op.Valid n) → (∃ op ∈ ops, op.FixesActivity) → ∀ A0,
        ∃ vg, G'.toVGraph.runOps gv ga 0 ops = some vg ∧
          ({ G' with toVGraph := vg } : Graph V' E).Represents n nrank threads es
            (VSpec.run ⟨fun _ => d, A0⟩ ops).prop (VSpec.run ⟨fun _ => d, A0⟩ ops).active := by
  have how : ∀ i j, own2d nrank i j < nrank := fun i j => (own2d_spec c.rpos i j).2
  let TA' : Nat → Nat → Tile E := fun i j => (TA i j).reload (env.gA (own2d nrank i j) i j)
  let TT' : Nat → Nat → Tile E := fun i j => (TT i j).reload (env.gAT (own2d nrank i j) i j)
  let DA : DMat E := (List.range nrank).map (matOf n n nrank nrank nrank (own2d nrank) TA')
  let DT : DMat E := (List.range nrank).map (matOf n n nrank nrank nrank (own2d nrank) TT')
  have rA : DA.Rep n n nrank nrank nrank (own2d nrank) TA' PA (es.map (nativeEdge (threads * 16 * nrank) n)) :=
    ⟨rfl, hh.A.inMat, fun i j hi hj => (hh.A.tile i j hi hj).reload _⟩
  have rT : DT.Rep n n nrank nrank nrank (own2d nrank) TT' PT
      ((es.map (nativeEdge (threads * 16 * nrank) n)).map swapEdge) :=
    ⟨rfl, hh.AT.inMat, fun i j hi hj => (hh.AT.tile i j hi hj).reload _⟩
  obtain ⟨nz, hnz⟩ := rA.getNNZ_total c.rpos c.rpos
  obtain ⟨vg, v1, v2, v3, _⟩ := VGraph.create_spec c env.gv env.ga env.d
  have hread : Graph.readBin env threads nrank ((List.range nrank).map (fun r =>
      (matOf n n nrank nrank nrank (own2d nrank) TA r).toks (own2d nrank) ++
      ((matOf n n nrank nrank nrank (own2d nrank) TT r).toks (own2d nrank) ++ [.int threads]))) =
      some { vg with nnz := nz, A := DA, AT := DT } := by
    unfold Graph.readBin
    simp only [Option.bind_eq_bind]
    rw [mapM_some (g := fun r => (matOf n n nrank nrank nrank (own2d nrank) TA' r,
      matOf n n nrank nrank nrank (own2d nrank) TT' r)) (by
        intro r hr
        have hr' := List.mem_range.mp hr
        simp only [List.getElem?_map, List.getElem?_range hr', Option.map_some, Option.bind_some]
        unfold readBinRank
        simp only [Option.bind_eq_bind]
        rw [hh.A.reload c.rpos env.gA r, Option.bind_some]
        simp only []
        rw [hh.AT.reload c.rpos env.gAT r, Option.bind_some]
        simp [BinOut.pair?, TA', TT', matOf, getInt])]
    simp only [Option.bind_some]
    have h0 : ((List.range nrank).map (fun r => (matOf n n nrank nrank nrank (own2d nrank) TA' r,
      matOf n n nrank nrank nrank (own2d nrank) TT' r)))[0]? =
        some (matOf n n nrank nrank nrank (own2d nrank) TA' 0, matOf n n nrank nrank nrank (own2d nrank) TT' 0) := by
      rw [List.getElem?_map, List.getElem?_range c.rpos]
      rfl
    rw [h0, Option.bind_some, if_neg (by simp [matOf]), List.map_map, List.map_map]
    have e1 : (List.range nrank).map (Prod.fst ∘ fun r => (matOf n n nrank nrank nrank (own2d nrank) TA' r,
      matOf n n nrank nrank nrank (own2d nrank) TT' r)) = DA := rfl
    have e2 : (List.range nrank).map (Prod.snd ∘ fun r => (matOf n n nrank nrank nrank (own2d nrank) TA' r,
      matOf n n nrank nrank nrank (own2d nrank) TT' r)) = DT := rfl
    rw [e1, e2, hnz, Option.bind_some]
    simp only [matOf]
    rw [v1, Option.bind_some]
  have hH : ({ vg with nnz := nz, A := DA, AT := DT } : Graph V' E).Holds n nrank threads TA' TT' PA PT
      (es.map (nativeEdge (threads * 16 * nrank) n)) := ⟨v2, rA, rT⟩
  obtain ⟨Ls, l1, l2⟩ := hH.getEdgelists c hv
  refine ⟨_, _, Ls, _, hh.writeBin, by simp, hread, v2.hn, v1, ?_, l1, l2, renumber_spec c hv,
    rA.storedOnce c.rpos how, rT.storedOnce c.rpos how, ?_⟩
  · intro hlen
    have := rA.getNNZ c.rpos c.rpos how (by rw [List.length_map]; exact hlen)
    rw [hnz, List.length_map] at this
    exact Option.some.inj this
  · intro d hd gv ga ops hops hfix A0
    obtain ⟨vg', b1, b2, b3, b4⟩ := VGraph.runOps_spec c gv ga ops 0 vg ⟨fun _ => d, A0⟩ v2 hops (by
      intro v k1 k2
      rw [v3 v k1 k2, hd])
    exact ⟨vg', b1, TA', TT', PA, PT, hv, ⟨b2, rA, rT⟩, b3, b4 (.inl hfix)⟩

/-- C41: take any graph the interface can build (edges `es`, any number of ranks and threads).  `WriteGraphMatBin`
succeeds and writes one file per rank.  `ReadGraphMatBin` with the same numbers of ranks and threads succeeds.  The new
graph has the same number of vertices, and its vertex part is that of a newly loaded graph.  The lists of edges the
ranks get from it are together a permutation of `es`.  Both stored matrices hold exactly these edges, each in one tile
on one rank.  After any calls that settle which vertices are active, it behaves in every later operation as the graph
with the edges `es`.  The vertex type may be another one than when the file was written. -/
theorem snapshot_round_trip {n nrank threads : Nat} (c : Cfg n nrank threads) {G : Graph V E} {es : List (Edge E)}
    {P : Nat → V} {A : Nat → Bool} (h : G.Represents n nrank threads es P A) (env : LoadEnv V' E) :
    ∃ files G' Ls nat, G.writeBin = some files ∧ files.length = nrank ∧
      Graph.readBin env threads nrank files = some G' ∧
      G'.n = n ∧ VGraph.create n nrank threads env.gv env.ga env.d = some G'.toVGraph ∧
      (es.length < 2 ^ 32 → G'.nnz = List.replicate nrank es.length) ∧
      (List.range nrank).mapM (fun r => G'.getEdgelist r) = some Ls ∧ Ls.flatten.Perm es ∧
      renumber threads nrank n es = some nat ∧ StoredOnce n nrank G'.A nat ∧
      StoredOnce n nrank G'.AT (nat.map (fun e => { src := e.dst, dst := e.src, val := e.val })) ∧
      ∀ d, env.d = (fun _ => d) → ∀ gv ga ops, (∀ op ∈ ops, op.Valid n) → (∃ op ∈ ops, op.FixesActivity) → ∀ A0,
        ∃ vg, G'.toVGraph.runOps gv ga 0 ops = some vg ∧
          ({ G' with toVGraph := vg } : Graph V' E).Represents n nrank threads es
            (VSpec.run ⟨fun _ => d, A0⟩ ops).prop (VSpec.run ⟨fun _ => d, A0⟩ ops).active := by
  obtain ⟨TA, TT, PA, PT, hv, hh, _, _⟩ := h
  exact hh.snapshot c hv env

/-- C41, mismatch: with another number of ranks or threads than when the files were written, every rank that finds a
file stops with the corresponding error message, and no graph comes out. -/
theorem snapshot_mismatch_refused {n nrank threads : Nat} (c : Cfg n nrank threads) {G : Graph V E} {es : List (Edge E)}
    {P : Nat → V} {A : Nat → Bool} (h : G.Represents n nrank threads es P A) {files : List (Archive E)}
    (hw : G.writeBin = some files) {nrank' threads' : Nat} (hne : nrank' ≠ nrank ∨ threads' ≠ threads) :
    (∀ r, r < nrank' → ∀ file, files[r]? = some file → ∀ gA gAT,
      readBinRank gA gAT threads' nrank' r file = some (if nrank' ≠ nrank then .otherRanks else .otherThreads)) ∧
    ∀ env : LoadEnv V' E, Graph.readBin env threads' nrank' files = none := by
  obtain ⟨TA, TT, PA, PT, hv, hh, _, _⟩ := h
  rw [hh.writeBin] at hw
  injection hw with hw
  have key : ∀ r, r < nrank' → ∀ file, files[r]? = some file → ∀ gA gAT,
      readBinRank gA gAT threads' nrank' r file = some (if nrank' ≠ nrank then .otherRanks else .otherThreads) := by
    intro r _ file hf gA gAT
    rw [← hw, List.getElem?_map] at hf
    rcases Nat.lt_or_ge r nrank with hr | hr
    · rw [List.getElem?_range hr] at hf
      injection hf with hf
      subst hf
      unfold readBinRank
      simp only [Option.bind_eq_bind]
      rw [RMat.load_spec (hh.A.tileRep r), Option.bind_some]
      simp only []
      rw [RMat.load_spec (hh.AT.tileRep r), Option.bind_some]
      simp only [matOf, getInt, Option.bind_some]
      by_cases hn : nrank' = nrank
      · have ht : threads ≠ threads' := by
          rcases hne with h | h
          · exact absurd hn h
          · exact fun e => h e.symm
        subst hn
        simp [ht]
      · have hn' : nrank ≠ nrank' := fun e => hn e.symm
        simp [hn, hn']
    · rw [List.getElem?_eq_none (by simpa using hr)] at hf
      cases hf
  refine ⟨key, ?_⟩
  intro env
  unfold Graph.readBin
  rcases Nat.eq_zero_or_pos nrank' with h0 | hpos
  · subst h0
    simp
  · obtain ⟨k, rfl⟩ : ∃ k, nrank' = k + 1 := ⟨nrank' - 1, by omega⟩
    have hfirst : ∃ file, files[0]? = some file := by
      rw [← hw, List.getElem?_map, List.getElem?_range c.rpos]
      exact ⟨_, rfl⟩
    obtain ⟨file, hf⟩ := hfirst
    rw [List.range_succ_eq_map, List.mapM_cons, hf]
    simp only [Option.bind_eq_bind, Option.bind_some]
    rw [key 0 hpos file hf]
    simp only [Option.bind_some]
    split <;> rfl

/-- C41: whatever a file contains, a rank goes on only if both matrices in it are divided for this number of ranks, in both directions, and the
number of threads after them is its own. -/
theorem snapshot_checks {gA gAT : Nat → Nat → TileFresh E} {threads nrank r : Nat} {file : Archive E} {A AT : RMat E}
    (h : readBinRank gA gAT threads nrank r file = some (.matrices A AT)) :
    A.ntx = nrank ∧ A.nty = nrank ∧ AT.ntx = nrank ∧ AT.nty = nrank ∧
      ∃ ar1 ar2 ar3, RMat.load gA nrank r file = some (A, ar1) ∧ RMat.load gAT nrank r ar1 = some (AT, ar2) ∧
        getInt ar2 = some (threads, ar3) := by
  unfold readBinRank at h
  simp only [Option.bind_eq_bind] at h
  cases h1 : RMat.load gA nrank r file with
  | none => rw [h1] at h; cases h
  | some x =>
    rw [h1, Option.bind_some] at h
    cases h2 : RMat.load gAT nrank r x.2 with
    | none => rw [h2] at h; cases h
    | some y =>
      rw [h2, Option.bind_some] at h
      by_cases hc : x.1.ntx ≠ nrank ∨ x.1.nty ≠ nrank ∨ y.1.ntx ≠ nrank ∨ y.1.nty ≠ nrank
      · rw [if_pos hc] at h; cases h
      · rw [if_neg hc] at h
        cases h3 : getInt y.2 with
        | none => rw [h3] at h; cases h
        | some z =>
          rw [h3, Option.bind_some] at h
          by_cases ht : z.1 ≠ threads
          · rw [if_pos ht] at h; cases h
          · rw [if_neg ht] at h
            simp only [Option.some.injEq, BinOut.matrices.injEq] at h
            obtain ⟨rfl, rfl⟩ := h
            simp only [not_or, not_not] at hc ht
            refine ⟨hc.1, hc.2.1, hc.2.2.1, hc.2.2.2, x.2, y.2, z.2, rfl, h2, ?_⟩
            rw [← ht]
            exact h3

/-- The file of a rank without tiles, for a matrix with two columns and `k` rows of tiles and its transpose. -/
def snapshotSample (k : Nat) : Option (Archive Nat) :=
  writeBinRank { m := 4, n := 4, ntx := 2, nty := k, nrank := 2, myrank := 0, node := fun _ _ => some 1, tiles := fun _ _ => none }
    { m := 4, n := 4, ntx := 2, nty := 2, nrank := 2, myrank := 0, node := fun _ _ => some 1, tiles := fun _ _ => none } 1

/-- What rank 0 of two with one thread does with it: with two rows of tiles it goes on, with one it stops. -/
example : [2, 1].map (fun k => (snapshotSample k).map (fun file =>
    match readBinRank (fun _ _ => ⟨fun _ => 0, fun _ _ => 0⟩) (fun _ _ => ⟨fun _ => 0, fun _ _ => 0⟩) 1 2 0 file with
    | some (.matrices _ _) => 1
    | some .otherRanks => 2
    | some .otherThreads => 3
    | none => 0)) = [some 1, some 2] := by decide +kernel

/-- A graph as in the hypotheses: 40 vertices on 2 ranks, with a duplicate edge and a self loop. -/
example : ∃ (out : List (List (Edge Nat))) (G : Graph Nat Nat) (vg : VGraph Nat) (P : Nat → Nat) (A : Nat → Bool),
    Graph.readEdgelist (LoadEnv.sample (V := Nat) (E := Nat) 0 0) 1 2 40 40
      [[⟨2, 1, 5⟩, ⟨40, 2, 6⟩, ⟨2, 1, 5⟩, ⟨7, 7, 8⟩], [⟨1, 39, 9⟩]] = some (out, G) ∧
    ({ G with toVGraph := vg } : Graph Nat Nat).Represents 40 2 1
      [⟨2, 1, 5⟩, ⟨40, 2, 6⟩, ⟨2, 1, 5⟩, ⟨7, 7, 8⟩, ⟨1, 39, 9⟩] P A := by
  obtain ⟨out, G, vg, h1, _, h2⟩ := Graph.load_represents (n := 40) (nrank := 2) (threads := 1)
    ⟨by decide, by decide, by decide, by decide⟩ (LoadEnv.sample (V := Nat) (E := Nat) 0 0) Sorts.ins_ok Sorts.ins_ok
    (d := 0) rfl (blobs := [[⟨2, 1, 5⟩, ⟨40, 2, 6⟩, ⟨2, 1, 5⟩, ⟨7, 7, 8⟩], [⟨1, 39, 9⟩]]) rfl (by
      intro es hes e he
      simp at hes
      rcases hes with rfl | rfl <;> simp at he
      · rcases he with rfl | rfl | rfl | rfl <;> simp [Edge.Valid]
      · subst he; simp [Edge.Valid])
    (fun _ _ _ => ⟨0, fun _ => 0, fun _ => 0, fun _ => 0, fun _ => 0⟩)
    (fun _ _ _ => ⟨0, fun _ => false, fun _ => 0, fun _ => false, fun _ => 0⟩)
    (ops := [.setAllProp 1, .setAllActive]) (by
      intro op hop
      simp at hop
      rcases hop with rfl | rfl <;> simp [VOp.Valid]) ⟨.setAllActive, by simp, trivial⟩ (fun _ => false)
  exact ⟨out, G, vg, _, _, h1, h2⟩

/-- Evaluated on one rank with one thread: the edges read back, from `A` and from `AT` with the ends exchanged. -/
example : ((Graph.readEdgelist (LoadEnv.sample (V := Int) (E := Int) 0 0) 1 1 20 20
      [[⟨2, 1, 5⟩, ⟨19, 2, 6⟩, ⟨2, 1, 5⟩, ⟨7, 7, 8⟩]]).bind (fun x => x.2.writeBin.bind (fun files =>
    (Graph.readBin (LoadEnv.sample (V := Int) (E := Int) 0 0) 1 1 files).bind
      (fun G => (G.getEdgelist 0).bind (fun a => (({ G with A := G.AT } : Graph Int Int).getEdgelist 0).map (fun b => (a, b))))))) =
    some ([⟨2, 1, 5⟩, ⟨2, 1, 5⟩, ⟨19, 2, 6⟩, ⟨7, 7, 8⟩], [⟨1, 2, 5⟩, ⟨1, 2, 5⟩, ⟨7, 7, 8⟩, ⟨2, 19, 6⟩]) := by
  decide +kernel

/-- Evaluated: with two threads instead of one the file is refused. -/
example : ((Graph.readEdgelist (LoadEnv.sample (V := Int) (E := Int) 0 0) 1 1 20 20 [[⟨2, 1, 5⟩]]).bind (fun x =>
    x.2.writeBin.map (fun files =>
      (Graph.readBin (LoadEnv.sample (V := Int) (E := Int) 0 0) 2 1 files).isSome))) = some false := by
  decide +kernel

end GraphMat

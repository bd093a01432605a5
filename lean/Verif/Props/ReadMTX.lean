import Verif.Model.ReadMTX
import Verif.Lemmas.Converter
import Verif.Props.Bfs
import Verif.Props.Load

/-!
# C58: graphs loaded from files
-/
namespace GraphMat

variable {V E : Type}

/-- The number of vertices of a graph in files: the largest dimension in a header. -/
def fileVertices (els : List (EdgeList E)) : Nat :=
  (max (topOf (els.map EdgeList.m)) (topOf (els.map EdgeList.n))).toNat

/-- The edges in files. -/
def fileEdges (els : List (EdgeList E)) : List (Edge E) := els.flatMap EdgeList.list

/-- The lists can be written to files, and their edges are between the vertices. -/
structure FilesOk (els : List (EdgeList E)) (nrank : Nat) : Prop where
  size : ∀ el ∈ els, el.nnz ≤ el.edges.size
  dim : ∀ el ∈ els, IsInt32 el.m ∧ IsInt32 el.n
  valid : ∀ e ∈ fileEdges els, e.Valid (fileVertices els)
  share : ∀ r, r < nrank → (fileEdges (everyNth nrank r els)).length ≤ 2147483647

theorem squareDims_eq (m n : Int) : squareDims m n = (max m n, max m n) := by
  unfold squareDims
  split
  · rfl
  · next h =>
    have : m = n := by omega
    subst this
    rw [max_self]

theorem topOf_nonneg (l : List Int) : 0 ≤ topOf l := (topOf_le.1 (le_refl _)).1

theorem topOf_int32 {l : List Int} (h : ∀ x ∈ l, IsInt32 x) : topOf l ≤ 2147483647 :=
  topOf_le.2 ⟨by omega, fun x hx => (h x hx).2⟩

/-- Loading the files is `ReadEdgelist` of some distribution of their edges over the ranks. -/
theorem readMTX_is_readEdgelist {bt : BinType E} {els : List (EdgeList E)} (hb : ∀ e ∈ fileEdges els, bt.Ok e.val)
    {nrank : Nat} (hr : 0 < nrank) (h : FilesOk els nrank) (g : Nat → Nat → Edge E) :
    ∃ fs blobs, els.mapM (writeBin bt true true) = some fs ∧ blobs.length = nrank ∧
      blobs.flatten.Perm (fileEdges els) ∧
      ∀ (V : Type) (env : LoadEnv V E) (threads : Nat), Graph.readMTX env bt threads nrank g fs =
        (Graph.readEdgelist env threads nrank (fileVertices els) (fileVertices els) blobs).map (·.2) := by
  have hn32 : fileVertices els ≤ 2147483647 := by
    have h1 := topOf_int32 (l := els.map EdgeList.m) (by
      intro x hx; obtain ⟨el, h1, rfl⟩ := List.mem_map.1 hx; exact (h.dim el h1).1)
    have h2 := topOf_int32 (l := els.map EdgeList.n) (by
      intro x hx; obtain ⟨el, h1, rfl⟩ := List.mem_map.1 hx; exact (h.dim el h1).2)
    unfold fileVertices
    omega
  obtain ⟨fs, out, h1, h2, h3, h4⟩ := binary_files_load true true
    (fun el hel e he => hb e (List.mem_flatMap.2 ⟨el, hel, he⟩)) h.size h.dim
    (by
      intro el hel e he
      have := h.valid e (List.mem_flatMap.2 ⟨el, hel, he⟩)
      unfold Edge.Valid at this
      unfold IsInt32
      omega) hr h.share g
  have hall : ∀ el ∈ out, el.m = topOf (els.map EdgeList.m) ∧ el.n = topOf (els.map EdgeList.n) := by
    intro el hel
    obtain ⟨r, hr1, hr2⟩ := List.mem_iff_getElem.1 hel
    obtain ⟨el', a1, _, _, _, a5, a6⟩ := h4 r (by omega)
    rw [List.getElem?_eq_getElem hr1, hr2] at a1
    cases a1
    exact ⟨a5, a6⟩
  have hmap : out.map EdgeList.list = (List.range nrank).map (fun r => (everyNth nrank r els).flatMap EdgeList.list) := by
    apply List.ext_getElem?
    intro r
    rw [List.getElem?_map, List.getElem?_map]
    by_cases hlt : r < nrank
    · obtain ⟨el, a1, a2, _⟩ := h4 r hlt
      rw [a1, List.getElem?_range hlt, Option.map_some, Option.map_some, a2, seenEdge_weights, List.map_id]
    · rw [List.getElem?_eq_none (by omega), List.getElem?_eq_none (by simp; omega)]; rfl
  refine ⟨fs, out.map EdgeList.list, h1, by rw [List.length_map, h3], ?_, ?_⟩
  · rw [hmap, ← List.flatMap_def]
    unfold fileEdges
    have := (everyNth_perm hr els).flatMap_right (f := EdgeList.list)
    rw [List.flatMap_assoc] at this
    exact this
  · intro V env threads
    unfold Graph.readMTX
    rw [h2]
    simp only [Option.bind_eq_bind, Option.bind_some]
    cases out with
    | nil => simp at h3; omega
    | cons el out =>
      rw [List.head?_cons, Option.bind_some]
      have hd : ∀ x ∈ el :: out, squareDims x.m x.n = ((fileVertices els : Int), (fileVertices els : Int)) := by
        intro x hx
        rw [squareDims_eq, (hall x hx).1, (hall x hx).2]
        have := topOf_nonneg (els.map EdgeList.m)
        unfold fileVertices
        rw [Int.toNat_of_nonneg (by omega)]
      rw [hd el List.mem_cons_self]
      rw [if_neg (by
        rw [Bool.not_eq_true, List.any_eq_false]
        intro x hx
        rw [hd x hx]
        simp)]
      have hi : natIdx (fileVertices els : Int) = some (fileVertices els) := by
        unfold natIdx; simp
      simp only [hi, Option.bind_some]
      cases Graph.readEdgelist env threads nrank (fileVertices els) (fileVertices els) ((el :: out).map EdgeList.list) <;> rfl

/-- C58: lists of edges are written to binary files with header and weights, one file per list; any number of ranks,
with any number of threads, loads them with `ReadMTX`.  The graph then has as many vertices as the largest dimension in
a header says; the ranks together hold exactly the edges of the files (each as often as it is in the files, with its
value), and every rank reports their number. -/
theorem files_to_graph {bt : BinType E} {els : List (EdgeList E)} (hb : ∀ e ∈ fileEdges els, bt.Ok e.val)
    {nrank threads : Nat}
    (c : Cfg (fileVertices els) nrank threads) (h : FilesOk els nrank) (env : LoadEnv V E) (hsA : env.sA.OK)
    (hsT : env.sAT.OK) (g : Nat → Nat → Edge E) :
    ∃ fs G Ls, els.mapM (writeBin bt true true) = some fs ∧ Graph.readMTX env bt threads nrank g fs = some G ∧
      G.n = fileVertices els ∧
      (List.range nrank).mapM (fun r => G.getEdgelist r) = some Ls ∧ Ls.flatten.Perm (fileEdges els) ∧
      ((fileEdges els).length < 2 ^ 32 → ∀ r, r < nrank → G.nnz[r]? = some (fileEdges els).length) := by
  obtain ⟨fs, blobs, h1, h2, h3, h4⟩ := readMTX_is_readEdgelist hb c.rpos h g
  have hin : ∀ es ∈ blobs, ∀ e ∈ es, e.Valid (fileVertices els) := fun es hes e he =>
    h.valid e (h3.mem_iff.1 (List.mem_flatten.2 ⟨es, hes, he⟩))
  obtain ⟨out, G, Ls, a1, a2, a3⟩ := edgelist_survives_loading c env hsA hsT blobs h2 hin
  obtain ⟨out', G', es, b1, _, _, _, b2⟩ := edge_stored_once c env hsA hsT blobs h2 hin
  rw [a1] at b1
  cases b1
  refine ⟨fs, G, Ls, h1, by rw [h4, a1]; rfl, ?_, a2, a3.trans h3, ?_⟩
  · obtain ⟨out2, G2, TA, TT, PA, PT, c1, c2, _⟩ := Graph.readEdgelist_spec c env hsA hsT h2 (by
      intro e he
      obtain ⟨es, k1, k2⟩ := List.mem_flatten.1 he
      exact hin es k1 e k2)
    rw [a1] at c1
    cases c1
    exact c2.inv.hn
  · rw [← h3.length_eq]
    exact b2

theorem Walk.of_mem {es es' : List (Edge E)} (h : ∀ e ∈ es, e ∈ es') {s v k : Nat} (w : Walk es s v k) :
    Walk es' s v k := by
  induction w with
  | refl => exact .refl
  | step e _ h1 h2 h3 ih => exact .step e ih (h e h1) h2 h3

theorem IsHops.perm {es es' : List (Edge E)} (h : es.Perm es') (s v k : Nat) : IsHops es s v k ↔ IsHops es' s v k :=
  ⟨fun ⟨a, b⟩ => ⟨a.of_mem fun _ => h.mem_iff.1, fun j w => b j (w.of_mem fun _ => h.mem_iff.2)⟩,
    fun ⟨a, b⟩ => ⟨a.of_mem fun _ => h.mem_iff.2, fun j w => b j (w.of_mem fun _ => h.mem_iff.1)⟩⟩

theorem Reachable.perm {es es' : List (Edge E)} (h : es.Perm es') (s v : Nat) : Reachable es s v ↔ Reachable es' s v :=
  ⟨fun ⟨k, w⟩ => ⟨k, w.of_mem fun _ => h.mem_iff.1⟩, fun ⟨k, w⟩ => ⟨k, w.of_mem fun _ => h.mem_iff.2⟩⟩

theorem BfsV.Correct.perm {es es' : List (Edge Int)} (h : es.Perm es') {src v : Nat} {x : BfsV}
    (hx : x.Correct es src v) : x.Correct es' src v := by
  refine ⟨fun k hk => ?_, fun hk => hx.2 (fun h' => hk ((Reachable.perm h src v).1 h'))⟩
  obtain ⟨a, b⟩ := hx.1 k ((IsHops.perm h src v k).2 hk)
  refine ⟨a, fun i hi => ?_⟩
  obtain ⟨e, e1, e2, e3, e4⟩ := b i hi
  exact ⟨e, h.mem_iff.1 e1, e2, e3, (IsHops.perm h src _ i).1 e4⟩

/-- C58, from files to results: breadth-first search on files, on any number of ranks and threads, ends within as many
supersteps as there are vertices, with the hop distances in the graph whose edges are in the files. -/
theorem bfs_on_files {els : List (EdgeList Int)} (hb : ∀ e ∈ fileEdges els, IsInt32 e.val) {nrank threads : Nat}
    (c : Cfg (fileVertices els) nrank threads) (hfit : fileVertices els + threads ≤ IMAX) (h : FilesOk els nrank)
    (le : LoadEnv BfsV Int) (hsA : le.sA.OK) (hsT : le.sAT.OK) (hd : le.d = fun _ => BfsV.new)
    (g : Nat → Nat → Edge Int) (e : AppEnv (BitVec 64) (BitVec 64) BfsV) (tmp : Nat → Nat → Nat → Option Int)
    {src : Nat} (h1 : 1 ≤ src) (h2 : src ≤ fileVertices els) (fuel : Nat) (hf : fileVertices els ≤ fuel)
    (hfm : fuel ≤ IMAX) :
    ∃ fs G G', ∃ reached : List Nat, els.mapM (writeBin signedBin true true) = some fs ∧
      Graph.readMTX le signedBin threads nrank g fs = some G ∧
      runBfs e tmp src G fuel = some (.done (G', some (reached.length : Int))) ∧
      reached.Nodup ∧ (∀ v, v ∈ reached ↔ Reachable (fileEdges els) src v) ∧
      ∀ v, 1 ≤ v → v ≤ fileVertices els → ∃ x o, o < nrank ∧
        (∀ r, r < nrank → G'.getVertexproperty r v = some (if r = o then some x else none)) ∧
        x.Correct (fileEdges els) src v := by
  obtain ⟨fs, blobs, k1, k2, k3, k4⟩ := readMTX_is_readEdgelist (fun e he => signedBin_ok (hb e he)) c.rpos h g
  have hin : ∀ es ∈ blobs, ∀ e ∈ es, e.Valid (fileVertices els) := fun es hes e he =>
    h.valid e (k3.mem_iff.1 (List.mem_flatten.2 ⟨es, hes, he⟩))
  obtain ⟨out, G, G', reached, a1, a2, a3, a4, a5⟩ :=
    bfs_computes_hop_distances c hfit le hsA hsT hd k2 hin e tmp h1 h2 fuel hf hfm
  refine ⟨fs, G, G', reached, k1, by rw [k4, a1]; rfl, a2, a3, fun v => (a4 v).trans (Reachable.perm k3 src v), ?_⟩
  intro v v1 v2
  obtain ⟨x, o, b1, b2, b3⟩ := a5 v v1 v2
  exact ⟨x, o, b1, b2, b3.perm k3⟩

/-! ### Example -/

section
/-- two files of a 3 by 5 matrix; the graph has five vertices -/
private def exFiles : List (EdgeList (BitVec 32)) :=
  [⟨Arr.ofList ⟨0, 0, 0⟩ [⟨1, 5, 7⟩, ⟨3, 2, 9⟩], 3, 5, 2⟩, ⟨Arr.ofList ⟨0, 0, 0⟩ [⟨1, 5, 7⟩], 3, 5, 1⟩]

example : fileVertices exFiles = 5 := by decide

private theorem exFiles_ok : FilesOk exFiles 2 where
  size := by decide
  dim := by unfold IsInt32; decide
  valid := by unfold Edge.Valid; decide
  share := by decide

/-- what the two files are, and what two ranks with one thread each hold after loading them -/
example : ∃ fs, exFiles.mapM (writeBin intBin true true) = some fs ∧
    ((Graph.readMTX (LoadEnv.sample (V := Nat) 0 0) intBin 1 2 (fun _ _ => ⟨0, 0, 0⟩) fs).bind (fun G =>
      (List.range 2).mapM (fun r => G.getEdgelist r))).isSome = true := by
  have hc : Cfg (fileVertices exFiles) 2 1 := ⟨by decide, by decide, by decide, by decide⟩
  obtain ⟨fs, G, Ls, h1, h2, _, h3, _⟩ := files_to_graph (V := Nat) (fun e _ => intBin_good.ok e.val) hc exFiles_ok (LoadEnv.sample 0 0)
    Sorts.ins_ok Sorts.ins_ok (fun _ _ => ⟨0, 0, 0⟩)
  exact ⟨fs, h1, by rw [h2, Option.bind_some, h3]; rfl⟩

/-- the same, computed -/
example : ((exFiles.mapM (writeBin intBin true true)).bind (fun fs =>
    (Graph.readMTX (LoadEnv.sample (V := Nat) 0 0) intBin 1 2 (fun _ _ => ⟨0, 0, 0⟩) fs).bind (fun G =>
      ((List.range 2).mapM (fun r => G.getEdgelist r)).map (fun Ls => (G.n, G.nnz, Ls))))) =
    some (5, [3, 3], [[⟨3, 2, 9⟩, ⟨1, 5, 7⟩, ⟨1, 5, 7⟩], []]) := by
  decide +kernel

/-- breadth-first search on files with `int` values, one of them negative: all hypotheses are met -/
private def exInts : List (EdgeList Int) :=
  [⟨Arr.ofList ⟨0, 0, 0⟩ [⟨1, 5, -7⟩, ⟨5, 2, 9⟩], 3, 5, 2⟩, ⟨Arr.ofList ⟨0, 0, 0⟩ [⟨3, 1, 2147483647⟩], 3, 5, 1⟩]

example : ∃ fs G G', ∃ reached : List Nat, exInts.mapM (writeBin signedBin true true) = some fs ∧
    Graph.readMTX (LoadEnv.sample BfsV.new 0) signedBin 3 2 (fun _ _ => ⟨0, 0, 0⟩) fs = some G ∧
    runBfs (.sample 77#64 78#64 ⟨3#32, 4#64, 5#64⟩) (fun _ _ _ => some 9) 1 G 5 = some (.done (G', some (reached.length : Int))) ∧
    2 ∈ reached := by
  obtain ⟨fs, G, G', reached, h1, h2, h3, _, h4, _⟩ := bfs_on_files (els := exInts) (by unfold IsInt32; decide) (nrank := 2)
    (threads := 3) ⟨by decide, by decide, by decide, by decide⟩ (by decide)
    ⟨by decide, by unfold IsInt32; decide, by unfold Edge.Valid; decide, by decide⟩ (LoadEnv.sample BfsV.new 0) Sorts.ins_ok
    Sorts.ins_ok rfl (fun _ _ => ⟨0, 0, 0⟩) (.sample 77#64 78#64 ⟨3#32, 4#64, 5#64⟩) (fun _ _ _ => some 9) (src := 1) (by decide)
    (by decide) 5 (by decide) (by decide)
  exact ⟨fs, G, G', reached, h1, h2, h3, (h4 2).2 ⟨2, .step (u := 5) ⟨5, 2, 9⟩
    (.step (u := 1) (v := 5) ⟨1, 5, -7⟩ .refl (by decide) rfl rfl) (by decide) rfl rfl⟩⟩
end

end GraphMat

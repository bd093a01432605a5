import Verif.Lemmas.Kernel
import Verif.Props.Schedule

/-!
# Undefined behaviour in the multiplication kernel (C49)

The claim is that the kernel never leaves its arrays and never overflows an `int`.  It is false: the read made for the
prefetch leaves `col_indices`, and the product `m * n` in a dead store overflows.  The theorems say exactly when each of
them happens and that nothing else goes wrong.
-/
namespace GraphMat

variable {E T U V σ : Type}

/-- C49, what holds: for any tile of any loaded graph, any `process_message` and `reduce`, any input vector and any
output vector of the right sizes, all accesses that contribute to the product are in bounds, and the output keeps its
size.  Missing from the full claim: the read for the prefetch and the dead store, see `kernel_defined_iff`. -/
theorem kernel_accesses_in_bounds_partial {n nrank threads : Nat} (c : Cfg n nrank threads) (env : LoadEnv V E)
    (hsA : env.sA.OK) (hsT : env.sAT.OK) {blobs : List (List (Edge E))} (hb : blobs.length = nrank)
    (hin : ∀ es ∈ blobs, ∀ e ∈ es, e.Valid n) {out : List (List (Edge E))} {G : Graph V E}
    (hl : Graph.readEdgelist env threads nrank n n blobs = some (out, G)) {t : Tile E} (ht : G.HasTile t)
    {x : Arr T × Arr Word} (hx : POk t.n x) {y : Arr U × Arr Word} (hy : POk t.m y) :
    (∀ tmp mul add, ∃ y', t.spmspv tmp mul add x.1 x.2 y = some y' ∧ POk t.m y') ∧
    (∀ vs : Arr V × Arr Word, POk t.m vs → (∀ i, i < t.m → bitAt vs.2 i = true) →
      ∀ tmp mul add, ∃ y', t.spmspv3 tmp mul add x.1 x.2 vs.1 vs.2 y = some y' ∧ POk t.m y') := by
  obtain ⟨P, hP⟩ := loaded_tile_rep c env hsA hsT hb hin hl ht
  exact ⟨fun tmp mul add => hP.spmspv_some hx tmp mul add hy,
    fun vs hvs hall tmp mul add => hP.spmspv3_some hx tmp mul add hvs hall hy⟩

/-- C49, exactly when the kernel is defined: each stored column that has a message is followed by four more slots of
`col_indices`, and `m * n` fits an `int`; and then it gives the product. -/
theorem kernel_defined_iff {n nrank threads : Nat} (c : Cfg n nrank threads) (env : LoadEnv V E)
    (hsA : env.sA.OK) (hsT : env.sAT.OK) {blobs : List (List (Edge E))} (hb : blobs.length = nrank)
    (hin : ∀ es ∈ blobs, ∀ e ∈ es, e.Valid n) {out : List (List (Edge E))} {G : Graph V E}
    (hl : Graph.readEdgelist env threads nrank n n blobs = some (out, G)) {t : Tile E} (ht : G.HasTile t)
    {x : Arr T × Arr Word} (hx : POk t.n x) {y : Arr U × Arr Word} (hy : POk t.m y)
    (tmp : Nat → Nat → U) (mul : Nat → Nat → E → T → U → U) (add : U → U → U) :
    ((∃ y', t.kernel tmp mul add x.1 x.2 y = some y') ↔
      (∀ p, p < t.np → ∀ j, t.cs.get p + j + 1 < t.cs.get (p + 1) → bitAt x.2 (t.colIdx.get (t.cs.get p + j)) = true →
        t.cs.get p + j + 4 < t.colIdx.size) ∧ t.m * t.n ≤ 2147483647) ∧
    ∀ y', t.kernel tmp mul add x.1 x.2 y = some y' → t.spmspv tmp mul add x.1 x.2 y = some y' := by
  obtain ⟨P, hP⟩ := loaded_tile_rep c env hsA hsT hb hin hl ht
  have hI : t.m * t.n ≤ 2147483647 ↔ t.m * t.n ≤ IMAX := Iff.rfl
  rw [hI, ← t.deadStore_iff, ← hP.prefetch_iff hx]
  obtain ⟨y', h1, _⟩ := hP.spmspv_some hx tmp mul add hy
  unfold Tile.kernel
  simp only [Option.bind_eq_bind]
  rw [h1]
  cases t.prefetchReads x.2 with
  | none => simp
  | some u =>
    cases t.deadStore with
    | none => simp
    | some k => simp

/-- C49, exactly when the kernel for programs that read vertex properties is defined, likewise. -/
theorem kernel3_defined_iff {n nrank threads : Nat} (c : Cfg n nrank threads) (env : LoadEnv V E)
    (hsA : env.sA.OK) (hsT : env.sAT.OK) {blobs : List (List (Edge E))} (hb : blobs.length = nrank)
    (hin : ∀ es ∈ blobs, ∀ e ∈ es, e.Valid n) {out : List (List (Edge E))} {G : Graph V E}
    (hl : Graph.readEdgelist env threads nrank n n blobs = some (out, G)) {t : Tile E} (ht : G.HasTile t)
    {x : Arr T × Arr Word} (hx : POk t.n x) {y : Arr U × Arr Word} (hy : POk t.m y) {vs : Arr V × Arr Word} (hvs : POk t.m vs)
    (hall : ∀ i, i < t.m → bitAt vs.2 i = true) (tmp : Nat → Nat → U) (mul : E → T → V → U → U) (add : U → U → U) :
    ((∃ y', t.kernel3 tmp mul add x.1 x.2 vs.1 vs.2 y = some y') ↔
      (∀ p, p < t.np → ∀ j, t.cs.get p + j + 1 < t.cs.get (p + 1) → bitAt x.2 (t.colIdx.get (t.cs.get p + j)) = true →
        t.cs.get p + j + 4 < t.colIdx.size) ∧ t.m * t.n ≤ 2147483647) ∧
    ∀ y', t.kernel3 tmp mul add x.1 x.2 vs.1 vs.2 y = some y' → t.spmspv3 tmp mul add x.1 x.2 vs.1 vs.2 y = some y' := by
  obtain ⟨P, hP⟩ := loaded_tile_rep c env hsA hsT hb hin hl ht
  have hI : t.m * t.n ≤ 2147483647 ↔ t.m * t.n ≤ IMAX := Iff.rfl
  rw [hI, ← t.deadStore_iff, ← hP.prefetch_iff hx]
  obtain ⟨y', h1, _⟩ := hP.spmspv3_some hx tmp mul add hvs hall hy
  unfold Tile.kernel3
  simp only [Option.bind_eq_bind]
  rw [h1]
  cases t.prefetchReads x.2 with
  | none => simp
  | some u =>
    cases t.deadStore with
    | none => simp
    | some k => simp

/-- C49 is false, part 1.  Whenever the last column stored for the last partition has a message, the read for the
prefetch is behind the end of `col_indices`. -/
theorem kernel_prefetch_out_of_bounds {n nrank threads : Nat} (c : Cfg n nrank threads) (env : LoadEnv V E)
    (hsA : env.sA.OK) (hsT : env.sAT.OK) {blobs : List (List (Edge E))} (hb : blobs.length = nrank)
    (hin : ∀ es ∈ blobs, ∀ e ∈ es, e.Valid n) {out : List (List (Edge E))} {G : Graph V E}
    (hl : Graph.readEdgelist env threads nrank n n blobs = some (out, G)) {t : Tile E} (ht : G.HasTile t)
    {x : Arr T × Arr Word} (hx : POk t.n x) {p j : Nat} (hp : p + 1 = t.np)
    (hj : t.cs.get p + j + 2 = t.cs.get (p + 1)) (hbit : bitAt x.2 (t.colIdx.get (t.cs.get p + j)) = true)
    (tmp : Nat → Nat → U) (mul : Nat → Nat → E → T → U → U) (add : U → U → U) (y : Arr U × Arr Word) :
    t.prefetchReads x.2 = none ∧ t.kernel tmp mul add x.1 x.2 y = none := by
  obtain ⟨P, hP⟩ := loaded_tile_rep c env hsA hsT hb hin hl ht
  have hn : t.prefetchReads x.2 = none := by
    cases h : t.prefetchReads x.2 with
    | none => rfl
    | some u =>
      exfalso
      have hlt := (hP.prefetch_iff hx).mp h p (by omega) j (by omega) hbit
      have hsz := (hP.sizes (by omega)).2.2.2.2.2.1
      have hcs := (Arr.read_eq_some.mp (hP.cs p (by omega)).2).2
      rw [hsz, ← hp, ← hcs] at hlt
      omega
  refine ⟨hn, ?_⟩
  unfold Tile.kernel
  rw [hn]
  rfl

/-- C49 is false, part 2.  On one rank the kernel overflows for every graph with more than 46340 vertices, whatever its
edges and whichever vertices are active. -/
theorem kernel_dead_store_overflows {n threads : Nat} (c : Cfg n 1 threads) (hn : 46340 < n) (env : LoadEnv V E)
    (hsA : env.sA.OK) (hsT : env.sAT.OK) {blobs : List (List (Edge E))} (hb : blobs.length = 1)
    (hin : ∀ es ∈ blobs, ∀ e ∈ es, e.Valid n) {out : List (List (Edge E))} {G : Graph V E}
    (hl : Graph.readEdgelist env threads 1 n n blobs = some (out, G)) {t : Tile E} (ht : G.HasTile t)
    (tmp : Nat → Nat → U) (mul : Nat → Nat → E → T → U → U) (add : U → U → U) (xv : Arr T) (xb : Arr Word)
    (y : Arr U × Arr Word) : t.deadStore = none ∧ t.kernel tmp mul add xv xb y = none := by
  obtain ⟨h1, h2⟩ : t.m = n ∧ t.n = n := by
    have hv : ∀ e ∈ blobs.flatten, e.Valid n := by
      intro e he
      rw [List.mem_flatten] at he
      obtain ⟨es, h1, h2⟩ := he
      exact hin es h1 e h2
    obtain ⟨out', G', TA, TT, PA, PT, h1, h2, _⟩ := Graph.readEdgelist_spec c env hsA hsT hb hv
    rw [hl] at h1
    injection h1 with h1
    injection h1 with h0 h1
    subst h1
    have key : ∀ {D : DMat E} {ow : Nat → Nat → Nat} {T' : Nat → Nat → Tile E}
        {P : Nat → Nat → Nat → List (Col E)} {all : List (Edge E)}, D.Rep n n 1 1 1 ow T' P all →
        ∀ M ∈ D, ∀ i j, M.tiles i j = some t → t.m = n ∧ t.n = n := by
      intro D ow T' P all h M hM i j ht
      rw [h.mat, List.mem_map] at hM
      obtain ⟨r, _, rfl⟩ := hM
      simp only [matOf] at ht
      split at ht
      · next hc =>
        injection ht with ht
        subst ht
        obtain ⟨_, e1, e2, _⟩ := h.tile i j hc.1 hc.2.1
        have hi : i = 0 := by omega
        have hj : j = 0 := by omega
        subst hi hj
        rw [e1, e2]
        unfold bnd
        simp
      · cases ht
    obtain ⟨M, hM, i, j, ht⟩ := ht
    rcases hM with hM | hM
    · exact key h2.A M hM i j ht
    · exact key h2.AT M hM i j ht
  have hd : t.deadStore = none := by
    cases h : t.deadStore with
    | none => rfl
    | some k =>
      exfalso
      have e := (t.deadStore_iff).mp ⟨k, h⟩
      rw [h1, h2] at e
      have e2 : 46341 * 46341 ≤ n * n := Nat.mul_le_mul hn hn
      have e3 : IMAX < 46341 * 46341 := by decide
      omega
  refine ⟨hd, ?_⟩
  unfold Tile.kernel
  rw [hd]
  simp only [Option.bind_eq_bind]
  cases t.prefetchReads xb with
  | none => rfl
  | some u =>
    cases t.spmspv tmp mul add xv xb y with
    | none => rfl
    | some y' => rfl

/-- What the kernel does on the only tile of a small graph, all vertices with a message: whether the reads for the
prefetch are in bounds, whether the product is computed, and whether the dead store is defined. -/
def sampleKernel (n : Nat) (es : List (Edge Nat)) : Option (Bool × Bool × Bool) := do
  let (_, G) ← Graph.readEdgelist (LoadEnv.sample (V := Nat) (E := Nat) 0 0) 1 1 n n [es]
  let M ← G.AT[0]?
  let t ← M.tiles 0 0
  let xb : Arr Word := ⟨n / 32, fun _ => BitVec.allOnes 32⟩
  some ((t.prefetchReads xb).isSome,
    (t.spmspv (fun _ _ => 0) (fun _ _ e x _ => e + x) (· - ·) ⟨n, fun i => i⟩ xb
      (⟨n, fun _ => 0⟩, ⟨n / 32, fun _ => 0#32⟩)).isSome, t.deadStore.isSome)

/-- With 512 vertices the last of the 16 partitions holds rows, and one edge into the last vertex is enough. -/
example : sampleKernel 512 [⟨1, 512, 7⟩] = some (false, true, true) := by decide +kernel

/-- With 64 vertices the last partitions are empty; their slots of `col_indices` happen to be behind every column. -/
example : sampleKernel 64 [⟨2, 1, 5⟩, ⟨3, 1, 6⟩, ⟨1, 39, 9⟩, ⟨64, 64, 9⟩] = some (true, true, true) := by decide +kernel

/-- The hypotheses of `kernel_dead_store_overflows` can be met: such graphs load. -/
example : ∃ out G, Graph.readEdgelist (LoadEnv.sample (V := Nat) (E := Nat) 0 0) 4 1 50000 50000
    [[⟨1, 50000, 7⟩, ⟨2, 3, 4⟩]] = some (out, G) ∧ ∃ t, G.HasTile t := by
  have c : Cfg 50000 1 4 := ⟨by omega, by omega, by decide, by decide⟩
  obtain ⟨out, G, TA, TT, PA, PT, h1, h2, _⟩ := Graph.readEdgelist_spec c (LoadEnv.sample (V := Nat) (E := Nat) 0 0)
    Sorts.ins_ok Sorts.ins_ok (blobs := [[⟨1, 50000, 7⟩, ⟨2, 3, 4⟩]]) rfl (by
      intro e he
      simp only [List.flatten_cons, List.flatten_nil, List.append_nil, List.mem_cons, List.not_mem_nil, or_false] at he
      rcases he with rfl | rfl
      · exact ⟨by decide, by decide, by decide, by decide⟩
      · exact ⟨by decide, by decide, by decide, by decide⟩)
  refine ⟨out, G, h1, TA 0 0, ?_⟩
  refine ⟨matOf 50000 50000 1 1 1 (own2d 1) TA 0, .inl ?_, 0, 0, ?_⟩
  · rw [h2.A.mat]
    simp
  · simp [matOf, own2d]
    decide

end GraphMat

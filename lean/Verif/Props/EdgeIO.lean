import Verif.Lemmas.EdgeIO
import Verif.Props.EdgeList

/-!
# Reading and writing edges, dimensions of a list (property C66)
-/
namespace GraphMat

variable {E : Type}

/-- C66: `get_dimensions`, called by all ranks, gives everybody the largest source and the largest destination among the edges
of all ranks (zero if there are none), however the edges are spread over ranks and the iterations over threads; it reads no
edge outside the arrays. -/
theorem dimensions_are_the_largest_ids {els : List (EdgeList E)} (hne : els ≠ []) (hwf : ∀ el ∈ els, el.nnz ≤ el.edges.size)
    {chunks : Nat → List (List Nat)}
    (hp : ∀ (r : Nat) (h : r < els.length), (chunks r).flatten.Perm (List.range els[r].nnz)) :
    ∃ m n, getDimensions chunks els = some (m, n) ∧ 0 ≤ m ∧ 0 ≤ n ∧
      (∀ el ∈ els, ∀ e ∈ el.list, e.src ≤ m ∧ e.dst ≤ n) ∧
      (m = 0 ∨ ∃ el ∈ els, ∃ e ∈ el.list, e.src = m) ∧ (n = 0 ∨ ∃ el ∈ els, ∃ e ∈ el.list, e.dst = n) := by
  have hmem : ∀ l : List Int, topOf l = 0 ∨ topOf l ∈ l := by
    intro l
    induction l with
    | nil => exact Or.inl rfl
    | cons a l ih =>
      have e : topOf (a :: l) = max a (topOf l) := rfl
      rw [e]
      rcases le_total a (topOf l) with h | h
      · rw [max_eq_right h]
        rcases ih with h' | h'
        · exact Or.inl h'
        · exact Or.inr (List.mem_cons_of_mem _ h')
      · rw [max_eq_left h]
        exact Or.inr List.mem_cons_self
  have hall : ∀ l : List Int, 0 ≤ topOf l ∧ ∀ x ∈ l, x ≤ topOf l := fun l => topOf_le.1 (le_refl _)
  have hback : ∀ f : Edge E → Int, topOf ((els.flatMap EdgeList.list).map f) = 0 ∨
      ∃ el ∈ els, ∃ e ∈ el.list, f e = topOf ((els.flatMap EdgeList.list).map f) := by
    intro f
    rcases hmem ((els.flatMap EdgeList.list).map f) with h | h
    · exact Or.inl h
    · obtain ⟨e, he, h'⟩ := List.mem_map.1 h
      obtain ⟨el, hel, he⟩ := List.mem_flatMap.1 he
      exact Or.inr ⟨el, hel, e, he, h'⟩
  refine ⟨_, _, getDimensions_eq hne hwf hp, (hall _).1, (hall _).1, ?_, hback _, hback _⟩
  intro el hel e he
  have : e ∈ els.flatMap EdgeList.list := List.mem_flatMap.2 ⟨el, hel, he⟩
  exact ⟨(hall _).2 _ (List.mem_map.2 ⟨e, this, rfl⟩), (hall _).2 _ (List.mem_map.2 ⟨e, this, rfl⟩)⟩

/-- The permutations of `1..m`, as functions. -/
def PermutesTo (m : Nat) (π : Nat → Nat) : Prop :=
  (∀ v, 1 ≤ v → v ≤ m → 1 ≤ π v ∧ π v ≤ m) ∧ (∀ w, 1 ≤ w → w ≤ m → ∃ v, 1 ≤ v ∧ v ≤ m ∧ π v = w) ∧
    (∀ u v, 1 ≤ u → u ≤ m → 1 ≤ v → v ≤ m → π u = π v → u = v)

/-- An edge with both ends renamed. -/
def renamedEdge (π : Nat → Nat) (e : Edge E) : Edge E := ⟨(π e.src.toNat : Int), (π e.dst.toNat : Int), e.val⟩

theorem readEdges_plain {C : Type} {R : Reader C E} {header : Bool} {nrank : Nat} {g : Nat → Nat → Edge E} {gm rand : Nat → Nat}
    {fs : List (List C)} : readEdges R header false nrank g gm rand fs = loadEdgelist R header nrank g fs := by
  unfold readEdges
  cases loadEdgelist R header nrank g fs <;> rfl

theorem readEdges_random {C : Type} {R : Reader C E} {header : Bool} {nrank : Nat} {g : Nat → Nat → Edge E} {gm rand : Nat → Nat}
    {fs : List (List C)} {out : List (EdgeList E)} (h : loadEdgelist R header nrank g fs = some out) :
    readEdges R header true nrank g gm rand fs = out.mapM (randomizeSquare gm rand) := by
  unfold readEdges
  rw [h]
  rfl

/-- What loading gave, renumbered on every rank. -/
theorem renumber_loaded {out : List (EdgeList E)} {m : Nat} (hm : m ≤ IMAX) (gm rand : Nat → Nat)
    (h : ∀ el ∈ out, el.WF ∧ el.m = (m : Int) ∧
      ∀ e ∈ el.list, 1 ≤ e.src ∧ e.src ≤ (m : Int) ∧ 1 ≤ e.dst ∧ e.dst ≤ (m : Int)) :
    ∃ π, PermutesTo m π ∧ ∃ out', out.mapM (randomizeSquare gm rand) = some out' ∧ out'.length = out.length ∧
      ∀ (r : Nat) (hr : r < out.length), ∃ el, out'[r]? = some el ∧ el.list = out[r].list.map (renamedEdge π) ∧
        el.m = out[r].m ∧ el.n = out[r].n := by
  obtain ⟨π, h1, h2, h3, h4⟩ := random_renumbering_is_a_permutation_partial (E := E) gm rand hm
  refine ⟨π, ⟨h1, h3, h2⟩, ?_⟩
  clear h1 h2 h3
  induction out with
  | nil => exact ⟨[], rfl, rfl, fun r hr => absurd hr (by simp)⟩
  | cons el out ih =>
    obtain ⟨out', i1, i2, i3⟩ := ih (fun el' hel' => h el' (List.mem_cons_of_mem _ hel'))
    obtain ⟨w1, w2, w3⟩ := h el List.mem_cons_self
    obtain ⟨el', j1, _, j3, j4, j5⟩ := h4 el w1 w2 w3
    refine ⟨el' :: out', ?_, by simp [i2], ?_⟩
    · rw [List.mapM_cons, j1, i1]; rfl
    · intro r hr
      cases r with
      | zero => exact ⟨el', rfl, j5, j3, j4⟩
      | succ r => exact i3 r (by simpa using hr)

/-- C66: `WriteEdges` by every rank and then `ReadEdges` by as many ranks with the same flags, binary files.  Without
`randomize` every rank gets its edges back in order; the dimensions are those of the header, or else what `get_dimensions` says
of the lists. -/
theorem written_edges_are_read {bt : BinType E} (header weights : Bool) {els : List (EdgeList E)}
    (hb : ∀ el ∈ els, ∀ e ∈ el.list, bt.Ok e.val)
    (hne : els ≠ []) (hsz : ∀ el ∈ els, el.nnz ≤ el.edges.size)
    {m n : Int} (hm : 0 ≤ m ∧ IsInt32 m) (hn : 0 ≤ n ∧ IsInt32 n) (hdim : ∀ el ∈ els, el.m = m ∧ el.n = n)
    (hids : ∀ el ∈ els, ∀ e ∈ el.list, IsInt32 e.src ∧ IsInt32 e.dst)
    (hnnz : ∀ el ∈ els, el.nnz ≤ 2147483647) (g : Nat → Nat → Edge E) (gm rand : Nat → Nat) :
    ∃ fs out, writeEdgesBin bt header weights els = some fs ∧
      readEdges (binReader bt weights) header false els.length g gm rand fs = some out ∧ out.length = els.length ∧
      ∀ (r : Nat) (hr : r < els.length), ∃ el, out[r]? = some el ∧ el.list = els[r].list.map (seenEdge weights bt.one) ∧
        (header = true → el.m = m ∧ el.n = n) ∧
        (header = false → ∀ chunks : Nat → List (List Nat),
          (∀ (r : Nat) (h : r < els.length), (chunks r).flatten.Perm (List.range els[r].nnz)) →
          getDimensions chunks els = some (el.m, el.n)) := by
  obtain ⟨fs, out, h1, h2, h3, h4⟩ := binary_round_trip header weights hb hne hsz hm hn hdim hids hnnz g
  refine ⟨fs, out, h1, by rw [readEdges_plain]; exact h2, h3, ?_⟩
  intro r hr
  obtain ⟨el, a1, a2, _, a4, a5⟩ := h4 r hr
  refine ⟨el, a1, a2, ?_, ?_⟩
  · rintro rfl
    exact ⟨a4, a5⟩
  · rintro rfl chunks hc
    rw [getDimensions_eq hne hsz hc, a4, a5]
    rfl

/-- The same for text files with `int` weights. -/
theorem written_text_edges_are_read (header weights : Bool) {els : List (EdgeList Int)}
    (hne : els ≠ []) (hsz : ∀ el ∈ els, el.nnz ≤ el.edges.size)
    {m n : Int} (hm : 0 ≤ m ∧ IsInt32 m) (hn : 0 ≤ n ∧ IsInt32 n) (hdim : ∀ el ∈ els, el.m = m ∧ el.n = n)
    (hids : ∀ el ∈ els, ∀ e ∈ el.list, IsInt32 e.src ∧ IsInt32 e.dst)
    (hnnz : ∀ el ∈ els, el.nnz ≤ 2147483647) (g : Nat → Nat → Edge Int) (gm rand : Nat → Nat) :
    ∃ fs out, writeEdgesText printInt header weights els = some fs ∧
      readEdges (textReader intText weights) header false els.length g gm rand fs = some out ∧ out.length = els.length ∧
      ∀ (r : Nat) (hr : r < els.length), ∃ el, out[r]? = some el ∧ el.list = els[r].list.map (seenEdge weights 1) ∧
        (header = true → el.m = m ∧ el.n = n) ∧
        (header = false → ∀ chunks : Nat → List (List Nat),
          (∀ (r : Nat) (h : r < els.length), (chunks r).flatten.Perm (List.range els[r].nnz)) →
          getDimensions chunks els = some (el.m, el.n)) := by
  obtain ⟨fs, out, h1, h2, h3, h4⟩ := text_round_trip header weights hne hsz hm hn hdim hids hnnz g
  refine ⟨fs, out, h1, by rw [readEdges_plain]; exact h2, h3, ?_⟩
  intro r hr
  obtain ⟨el, a1, a2, _, a4, a5⟩ := h4 r hr
  refine ⟨el, a1, a2, ?_, ?_⟩
  · rintro rfl
    exact ⟨a4, a5⟩
  · rintro rfl chunks hc
    rw [getDimensions_eq hne hsz hc, a4, a5]
    rfl

/-- C66: `WriteEdges` by every rank and then `ReadEdges` with `randomize` by any number of ranks, binary files.  The ranks get
the edges of their files with the ids renamed, all by one permutation of `1..k`, if all ids are within `1..k`, where `k` is the
number of rows found: the largest in the headers, or else the largest source id.  Missing: ids above `k`
(`random_read_fails_without_header`). -/
theorem written_edges_are_read_renumbered_partial {bt : BinType E} (header weights : Bool)
    {els : List (EdgeList E)} (hb : ∀ el ∈ els, ∀ e ∈ el.list, bt.Ok e.val) (hsz : ∀ el ∈ els, el.nnz ≤ el.edges.size)
    (hdim : ∀ el ∈ els, IsInt32 el.m ∧ IsInt32 el.n)
    {k : Nat} (hk : (k : Int) = topOf (if header then els.map EdgeList.m else (els.flatMap EdgeList.list).map Edge.src))
    (hids : ∀ el ∈ els, ∀ e ∈ el.list, 1 ≤ e.src ∧ e.src ≤ (k : Int) ∧ 1 ≤ e.dst ∧ e.dst ≤ (k : Int)) (hk' : k ≤ 2147483647)
    {nrank : Nat} (hn : 0 < nrank)
    (hshare : ∀ r, r < nrank → ((everyNth nrank r els).flatMap EdgeList.list).length ≤ 2147483647)
    (g : Nat → Nat → Edge E) (gm rand : Nat → Nat) :
    ∃ fs out π, writeEdgesBin bt header weights els = some fs ∧
      readEdges (binReader bt weights) header true nrank g gm rand fs = some out ∧ out.length = nrank ∧
      PermutesTo k π ∧
      ∀ r, r < nrank → ∃ el, out[r]? = some el ∧ el.m = (k : Int) ∧
        el.list = ((everyNth nrank r els).flatMap EdgeList.list).map (fun e => renamedEdge π (seenEdge weights bt.one e)) := by
  have hids' : ∀ el ∈ els, ∀ e ∈ el.list, IsInt32 e.src ∧ IsInt32 e.dst := by
    intro el hel e he
    have := hids el hel e he
    unfold IsInt32
    omega
  obtain ⟨fs, out, h1, h2, h3, h4⟩ := binary_files_load header weights hb hsz hdim hids' hn hshare g
  obtain ⟨π, p1, out', p2, p3, p4⟩ := renumber_loaded (out := out) (m := k) hk' gm rand (by
    intro el hel
    obtain ⟨r, hr, rfl⟩ := List.mem_iff_getElem.1 hel
    obtain ⟨el, a1, a2, a3, a4, a5, _⟩ := h4 r (by omega)
    have e : out[r] = el := by
      rw [List.getElem?_eq_getElem hr] at a1
      exact Option.some.inj a1
    rw [e]
    refine ⟨by unfold EdgeList.WF; omega, by rw [a5, hk], ?_⟩
    intro e he
    rw [a2] at he
    obtain ⟨e', he', rfl⟩ := List.mem_map.1 he
    obtain ⟨el', hel', he'⟩ := List.mem_flatMap.1 he'
    rw [seenEdge_src, seenEdge_dst]
    exact hids el' (mem_everyNth hel') e' he')
  refine ⟨fs, out', π, h1, by rw [readEdges_random h2]; exact p2, by rw [p3, h3], p1, ?_⟩
  intro r hr
  obtain ⟨el, a1, a2, _, _, a5, _⟩ := h4 r hr
  obtain ⟨el', b1, b2, b3, _⟩ := p4 r (by omega)
  have e : out[r] = el := by
    rw [List.getElem?_eq_getElem (by omega)] at a1
    exact Option.some.inj a1
  refine ⟨el', b1, by rw [b3, e, a5, hk], ?_⟩
  rw [b2, e, a2, List.map_map]
  rfl

/-! ### Samples -/

/-- The lists of two ranks. -/
def ioSample : List (EdgeList (BitVec 32)) :=
  [EdgeList.ofList ⟨0, 0, 0⟩ 4 4 [⟨1, 3, 7⟩, ⟨4, 2, 5⟩, ⟨2, 2, 1⟩], EdgeList.ofList ⟨0, 0, 0⟩ 4 4 [⟨3, 1, 9⟩]]

/-- Rank 0 has two threads, rank 1 three, one of them with nothing to do. -/
def ioChunks : Nat → List (List Nat)
  | 0 => [[0, 2], [1]]
  | _ => [[], [0], []]

theorem ioSample_wf : ∀ el ∈ ioSample, el.nnz ≤ el.edges.size := by
  unfold ioSample
  intro el hel
  simp only [List.mem_cons, List.not_mem_nil, or_false] at hel
  rcases hel with rfl | rfl <;> exact EdgeList.ofList_wf ..

theorem ioChunks_ok : ∀ (r : Nat) (h : r < ioSample.length), (ioChunks r).flatten.Perm (List.range ioSample[r].nnz) := by
  intro r h
  have : r < 2 := h
  rcases r with _ | _ | r
  · show [0, 2, 1].Perm [0, 1, 2]
    decide
  · show [0].Perm [0]
    decide
  · omega

example : getDimensions ioChunks ioSample = some (4, 3) := by decide +kernel

/-- No edges: zero. -/
example : getDimensions (fun _ => [[], []]) [EdgeList.ofList ⟨0, 0, 0⟩ 4 4 ([] : List (Edge Int))] = some (0, 0) := by
  decide +kernel

example : ∃ m n, getDimensions ioChunks ioSample = some (m, n) ∧ ∀ el ∈ ioSample, ∀ e ∈ el.list, e.src ≤ m ∧ e.dst ≤ n := by
  obtain ⟨m, n, h1, _, _, h2, _⟩ := dimensions_are_the_largest_ids (els := ioSample) (by simp [ioSample]) ioSample_wf ioChunks_ok
  exact ⟨m, n, h1, h2⟩

theorem ioSample_ids : ∀ el ∈ ioSample, ∀ e ∈ el.list, 1 ≤ e.src ∧ e.src ≤ (4 : Int) ∧ 1 ≤ e.dst ∧ e.dst ≤ (4 : Int) := by
  unfold ioSample
  intro el hel
  simp only [List.mem_cons, List.not_mem_nil, or_false] at hel
  rcases hel with rfl | rfl <;> rw [EdgeList.ofList_list] <;> decide

theorem ioSample_dim : ∀ el ∈ ioSample, el.m = 4 ∧ el.n = 4 := by
  unfold ioSample
  intro el hel
  simp only [List.mem_cons, List.not_mem_nil, or_false] at hel
  rcases hel with rfl | rfl <;> exact ⟨rfl, rfl⟩

example (header weights : Bool) (g : Nat → Nat → Edge (BitVec 32)) (gm rand : Nat → Nat) :
    ∃ fs out, writeEdgesBin intBin header weights ioSample = some fs ∧
      readEdges (binReader intBin weights) header false 2 g gm rand fs = some out ∧ out.length = 2 := by
  obtain ⟨fs, out, h1, h2, h3, _⟩ := written_edges_are_read header weights (els := ioSample) (m := 4) (n := 4)
    (fun _ _ e _ => intBin_good.ok e.val)
    (by simp [ioSample]) ioSample_wf (by unfold IsInt32; decide) (by unfold IsInt32; decide) ioSample_dim
    (by
      intro el hel e he
      have := ioSample_ids el hel e he
      unfold IsInt32
      omega)
    (by decide) g gm rand
  exact ⟨fs, out, h1, h2, h3⟩

example (header weights : Bool) (g : Nat → Nat → Edge (BitVec 32)) (gm rand : Nat → Nat) :
    ∃ fs out π, writeEdgesBin intBin header weights ioSample = some fs ∧
      readEdges (binReader intBin weights) header true 3 g gm rand fs = some out ∧ PermutesTo 4 π := by
  obtain ⟨fs, out, π, h1, h2, _, h3, _⟩ := written_edges_are_read_renumbered_partial header weights (els := ioSample)
    (fun _ _ e _ => intBin_good.ok e.val)
    ioSample_wf
    (by
      intro el hel
      rw [(ioSample_dim el hel).1, (ioSample_dim el hel).2]
      unfold IsInt32
      decide)
    (k := 4) (by cases header <;> decide) ioSample_ids (by decide) (nrank := 3) (by decide) (by decide) g gm rand
  exact ⟨fs, out, π, h1, h2, h3⟩

example (header weights : Bool) (g : Nat → Nat → Edge Int) (gm rand : Nat → Nat) :
    ∃ fs out, writeEdgesText printInt header weights [EdgeList.ofList ⟨0, 0, 0⟩ 5 9 [⟨5, 9, -3⟩]] = some fs ∧
      readEdges (textReader intText weights) header false 1 g gm rand fs = some out ∧ out.length = 1 := by
  obtain ⟨fs, out, h1, h2, h3, _⟩ := written_text_edges_are_read header weights
    (els := [EdgeList.ofList ⟨0, 0, 0⟩ 5 9 [⟨5, 9, -3⟩]]) (m := 5) (n := 9)
    (by simp) (by decide) (by unfold IsInt32; decide) (by unfold IsInt32; decide) (by decide)
    (by unfold IsInt32; decide) (by decide) g gm rand
  exact ⟨fs, out, h1, h2, h3⟩

/-- A square list (`m = n = 3`) written without header is read as one with a single row, so that renumbering it reads outside
the table of one entry. -/
theorem random_read_fails_without_header :
    ∃ fs, writeEdgesBin intBin false true [EdgeList.ofList ⟨0, 0, 0⟩ 3 3 [⟨1, 3, 7⟩]] = some fs ∧
      (readEdges (binReader intBin true) false false 1 (fun _ _ => ⟨0, 0, 0⟩) (fun _ => 0) (fun i => i) fs).map
        (List.map EdgeList.m) = some [1] ∧
      (readEdges (binReader intBin true) false true 1 (fun _ _ => ⟨0, 0, 0⟩) (fun _ => 0) (fun i => i) fs).isNone = true := by
  refine ⟨_, rfl, ?_⟩
  decide +kernel

end GraphMat

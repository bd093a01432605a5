import Verif.Lemmas.EdgeList
import Verif.Lemmas.Keyed
import Verif.Spec.Paths
import Verif.Spec.Sorting
import Mathlib.Data.List.Nodup
import Mathlib.Data.List.Perm.Subperm

/-!
# C33–C38, C51, C52: edge-list transformations
-/
namespace GraphMat

variable {E : Type}

/-- An edge list built from a list, for the examples. -/
def EdgeList.ofList (d : Edge E) (m n : Int) (l : List (Edge E)) : EdgeList E := ⟨Arr.ofList d l, m, n, l.length⟩

theorem EdgeList.ofList_wf (d : Edge E) (m n : Int) (l : List (Edge E)) : (EdgeList.ofList d m n l).WF := Nat.le_refl _

theorem EdgeList.ofList_list (d : Edge E) (m n : Int) (l : List (Edge E)) : (EdgeList.ofList d m n l).list = l :=
  Arr.pre_ofList d l

/-- A list for the examples. -/
def EdgeList.sample : EdgeList Int :=
  EdgeList.ofList ⟨0, 0, 0⟩ 5 6 [⟨1, 2, 10⟩, ⟨3, 3, 11⟩, ⟨4, 2, 12⟩, ⟨1, 2, 13⟩, ⟨5, 5, 14⟩, ⟨2, 4, 15⟩]

/-! ### C33 -/

/-- C33: `remove_selfedges` keeps exactly the edges between different vertices, in order, and the dimensions. -/
theorem remove_selfedges_keeps_the_rest (g : Nat → Edge E) {el : EdgeList E} (hwf : el.WF) :
    ∃ el', removeSelfedges g el = some el' ∧ el'.WF ∧ el'.m = el.m ∧ el'.n = el.n ∧
      el'.list = el.list.filter (fun e => decide (e.src ≠ e.dst)) := by
  obtain ⟨d, k, h1, h2, h3, h4⟩ := copyEdge_spec (p := fun e => decide (e.src ≠ e.dst)) hwf
    (g := (EdgeList.alloc g el.m el.n el.nnz).edges) (Nat.le_refl _)
  unfold removeSelfedges
  simp only
  rw [h1]
  refine ⟨_, rfl, ?_, rfl, rfl, h4⟩
  show k ≤ d.size
  rw [h2]; exact h3

example : (removeSelfedges (fun _ => ⟨0, 0, 0⟩) EdgeList.sample).map (fun el => (el.list, el.m, el.n)) =
    some ([⟨1, 2, 10⟩, ⟨4, 2, 12⟩, ⟨1, 2, 13⟩, ⟨2, 4, 15⟩], 5, 6) := by decide +kernel

/-! ### C37 -/

/-- C37: `filter_edges` returns exactly the edges satisfying the predicate, in order, and the dimensions.  (The input
list is an argument here, so it is not modified.) -/
theorem filter_edges_keeps_the_chosen (g : Nat → Edge E) (p : Edge E → Bool) {el : EdgeList E} (hwf : el.WF) :
    ∃ el', filterEdges g p el = some el' ∧ el'.WF ∧ el'.m = el.m ∧ el'.n = el.n ∧ el'.list = el.list.filter p := by
  obtain ⟨d, k, h1, h2, h3, h4⟩ := copyEdge_spec (p := p) hwf (g := (EdgeList.alloc g el.m el.n el.nnz).edges) (Nat.le_refl _)
  unfold filterEdges
  simp only
  rw [h1]
  refine ⟨_, rfl, ?_, rfl, rfl, h4⟩
  show k ≤ d.size
  rw [h2]; exact h3

example : (filterEdges (fun _ => ⟨0, 0, 0⟩) (fun e => decide (e.val ≤ 12)) EdgeList.sample).map (fun el => el.list) =
    some [⟨1, 2, 10⟩, ⟨3, 3, 11⟩, ⟨4, 2, 12⟩] := by decide +kernel

/-- C37: `filter_edges_by_row` keeps exactly the edges whose (zero-based) source row is in `[a, b)`, in order, with the
source shifted so that row `a` becomes the first; the list gets `b - a` rows, and every remaining source is one of
them. -/
theorem filter_edges_by_row_selects_the_rows {a b : Int} (ha : 0 ≤ a) (hab : a ≤ b) (hb : b ≤ (IMAX : Int)) {el : EdgeList E}
    (hwf : el.WF) (hsrc : ∀ e ∈ el.list, -(IMAX : Int) ≤ e.src ∧ e.src ≤ (IMAX : Int)) :
    ∃ el', filterEdgesByRow a b el = some el' ∧ el'.WF ∧ el'.m = b - a ∧ el'.n = el.n ∧
      el'.list = (el.list.filter (fun e => decide (a ≤ e.src - 1 ∧ e.src - 1 < b))).map (fun e => { e with src := e.src - a }) ∧
      ∀ f ∈ el'.list, 1 ≤ f.src ∧ f.src ≤ el'.m := by
  obtain ⟨el', h1, h2, h3, h4, h5⟩ := filterEdgesByRow_spec ha hab hb hwf hsrc
  refine ⟨el', h1, h2, h3, h4, h5, ?_⟩
  intro f hf
  rw [h5] at hf
  obtain ⟨e, he, rfl⟩ := List.mem_map.mp hf
  have := (List.mem_filter.mp he).2
  simp only [decide_eq_true_eq] at this
  rw [h3]
  simp only
  omega

example : (filterEdgesByRow 2 4 EdgeList.sample).map (fun el => (el.list, el.m)) =
    some ([⟨1, 3, 11⟩, ⟨2, 2, 12⟩], 2) := by decide +kernel

example : ∃ el', filterEdgesByRow 2 4 EdgeList.sample = some el' ∧ ∀ f ∈ el'.list, 1 ≤ f.src ∧ f.src ≤ el'.m := by
  obtain ⟨el', h1, _, _, _, _, h6⟩ := filter_edges_by_row_selects_the_rows (a := 2) (b := 4) (el := EdgeList.sample)
    (by decide) (by decide) (by unfold IMAX; decide) (EdgeList.ofList_wf ..)
    (by unfold EdgeList.sample IMAX; rw [EdgeList.ofList_list]; decide)
  exact ⟨el', h1, h6⟩

/-! ### C36 -/

/-- C36: `create_bidirectional_edges` yields every edge and its reverse with the same value, each as often as in the
input, and nothing else. -/
theorem both_directions_are_created (g : Nat → Edge E) {el : EdgeList E} (hwf : el.WF) (hmax : el.nnz * 2 ≤ IMAX) :
    ∃ el', createBidirectional g el = some el' ∧ el'.WF ∧ el'.m = el.m ∧ el'.n = el.n ∧
      el'.list.Perm (el.list ++ el.list.map (fun e => { src := e.dst, dst := e.src, val := e.val })) := by
  obtain ⟨el', h1, h2, h3, h4, h5⟩ := createBidirectional_spec g hwf hmax
  refine ⟨el', h1, h2, h3, h4, ?_⟩
  rw [h5]
  generalize el.list = l
  induction l with
  | nil => exact List.Perm.nil
  | cons a l ih =>
    rw [List.flatMap_cons, List.map_cons]
    show List.Perm (a :: a.swap :: _) (a :: (l ++ a.swap :: _))
    exact List.Perm.cons _ ((ih.cons _).trans List.perm_middle.symm)

example : (createBidirectional (fun _ => ⟨0, 0, 0⟩) EdgeList.sample).map (fun el => (el.list.take 4, el.nnz)) =
    some ([⟨1, 2, 10⟩, ⟨2, 1, 10⟩, ⟨3, 3, 11⟩, ⟨3, 3, 11⟩], 12) := by decide +kernel

/-- C36 needs the doubled count to fit an `int`. -/
theorem both_directions_overflow (g : Nat → Edge E) (el : EdgeList E) (h : IMAX < el.nnz * 2) :
    createBidirectional g el = none := by
  unfold createBidirectional cmul ck
  rw [if_neg]
  · rfl
  · unfold INT_MAX
    unfold IMAX at h
    omega

/-- C36: `convert_to_dag` turns every edge so that it leads from the smaller to the larger id, keeping its two ends, its
value, its position and the dimensions; afterwards there are no cycles except self loops: two vertices with walks both
ways are equal. -/
theorem directions_become_acyclic {el : EdgeList E} (hwf : el.WF) :
    ∃ el', convertToDag el = some el' ∧ el'.WF ∧ el'.m = el.m ∧ el'.n = el.n ∧
      List.Forall₂ (fun e f => f.src ≤ f.dst ∧ f.val = e.val ∧
        ((f.src = e.src ∧ f.dst = e.dst) ∨ (f.src = e.dst ∧ f.dst = e.src))) el.list el'.list ∧
      ∀ u v j k, Walk el'.list u v j → Walk el'.list v u k → u = v := by
  obtain ⟨el', h1, h2, h3, h4, h5⟩ := convertToDag_spec hwf
  refine ⟨el', h1, h2, h3, h4, ?_, ?_⟩
  · rw [h5, List.forall₂_map_right_iff, List.forall₂_same]
    intro e _
    by_cases h : e.src > e.dst
    · rw [if_pos h]
      exact ⟨by show e.dst ≤ e.src; omega, rfl, Or.inr ⟨rfl, rfl⟩⟩
    · rw [if_neg h]
      exact ⟨by omega, rfl, Or.inl ⟨rfl, rfl⟩⟩
  · have hle : ∀ f ∈ el'.list, f.src ≤ f.dst := by
      intro f hf
      rw [h5] at hf
      obtain ⟨e, _, rfl⟩ := List.mem_map.mp hf
      split
      · show e.dst ≤ e.src; omega
      · omega
    have hwalk : ∀ u v k, Walk el'.list u v k → u ≤ v := by
      intro u v k h
      induction h with
      | refl => exact Nat.le_refl _
      | step f _ hf hs hd ih =>
        have := hle f hf
        omega
    intro u v j k hj hk
    exact Nat.le_antisymm (hwalk u v j hj) (hwalk v u k hk)

example : (convertToDag EdgeList.sample).map (fun el => el.list) =
    some [⟨1, 2, 10⟩, ⟨3, 3, 11⟩, ⟨2, 4, 12⟩, ⟨1, 2, 13⟩, ⟨5, 5, 14⟩, ⟨2, 4, 15⟩] := by decide +kernel

/-! ### C52 -/

/-- C52: `randomize_edge_direction`, whatever the coin tosses, keeps every edge's two ends (as an unordered pair), its
value and its position, and reverses exactly the edges whose coin says so. -/
theorem random_direction_keeps_the_pairs (coin : Nat → Bool) {el : EdgeList E} (hwf : el.WF) :
    ∃ el', randomizeDirection coin el = some el' ∧ el'.WF ∧ el'.m = el.m ∧ el'.n = el.n ∧ el'.list.length = el.list.length ∧
      ∀ i e f, el.list[i]? = some e → el'.list[i]? = some f → f.val = e.val ∧
        (coin i = true → f.src = e.dst ∧ f.dst = e.src) ∧ (coin i = false → f.src = e.src ∧ f.dst = e.dst) := by
  obtain ⟨el', h1, h2, h3, h4, h5, h6⟩ := randomizeDirection_spec coin hwf
  refine ⟨el', h1, h2, h3, h4, by simp [h5], ?_⟩
  intro i e f he hf
  have hi : i < el.nnz := by
    obtain ⟨h, _⟩ := List.getElem?_eq_some_iff.mp he
    simpa using h
  rw [EdgeList.list_eq, Arr.pre_getElem? _ hi, Option.some.injEq] at he
  rw [EdgeList.list_eq, h5, Arr.pre_getElem? _ hi, Option.some.injEq] at hf
  subst he hf
  rw [h6 i hi]
  cases coin i
  · exact ⟨rfl, by simp, fun _ => ⟨rfl, rfl⟩⟩
  · exact ⟨rfl, fun _ => ⟨rfl, rfl⟩, by simp⟩

example : (randomizeDirection (fun i => decide (i % 2 = 0)) EdgeList.sample).map (fun el => el.list.take 3) =
    some [⟨2, 1, 10⟩, ⟨3, 3, 11⟩, ⟨2, 4, 12⟩] := by decide +kernel

/-! ### C35 -/

/-- C35: `shuffle_edges`, executed by all ranks on their lists (ids one-based, total count an `int`), with any number of
threads: the result holds exactly the input's edges, each as often as before, over all ranks together; the edges of
one source all end up on the same rank, namely `(src - 1) mod nrank`; and a rank's edges keep the order sender by
sender. -/
theorem shuffle_moves_every_edge_once {T : Nat} (hT : 0 < T) {els : List (EdgeList E)} (h0 : 0 < els.length)
    (hmax : els.length ≤ IMAX) (hwf : ∀ el ∈ els, el.WF) (hsrc : ∀ el ∈ els, ∀ e ∈ el.list, 1 ≤ e.src ∧ e.src ≤ (IMAX : Int))
    (htot : (els.flatMap EdgeList.list).length ≤ IMAX) (g : Nat → Nat → Edge E) :
    ∃ els' : List (EdgeList E), shuffleEdges g T els = some els' ∧ els'.length = els.length ∧
      (els'.flatMap EdgeList.list).Perm (els.flatMap EdgeList.list) ∧
      (∀ (r : Nat) (el' : EdgeList E), els'[r]? = some el' → ∀ e ∈ el'.list, ((e.src - 1) % (els.length : Int)) = (r : Int)) ∧
      (∀ (r s : Nat) (x y : EdgeList E), els'[r]? = some x → els'[s]? = some y → ∀ e ∈ x.list, ∀ f ∈ y.list, e.src = f.src → r = s) ∧
      ∀ (r : Nat) (el el' : EdgeList E), els[r]? = some el → els'[r]? = some el' → el'.WF ∧ el'.m = el.m ∧ el'.n = el.n ∧
        el'.list.Sublist (els.flatMap EdgeList.list) := by
  obtain ⟨els', h1, h2, h3⟩ := shuffleEdges_spec hT h0 hmax hwf hsrc htot g
  have hall : ∀ r el', els'[r]? = some el' →
      el'.list = (els.flatMap EdgeList.list).filter (fun e => decide (shuffleKey els.length e = r)) := by
    intro r el' h
    obtain ⟨hr, _⟩ := List.getElem?_eq_some_iff.mp h
    exact (h3 r _ el' (List.getElem?_eq_getElem (by omega)) h).2.2.2
  have hkey : ∀ (r : Nat) (el' : EdgeList E), els'[r]? = some el' → ∀ e ∈ el'.list, ((e.src - 1) % (els.length : Int)) = (r : Int) := by
    intro r el' h e he
    rw [hall r el' h, List.mem_filter, List.mem_flatMap] at he
    obtain ⟨⟨el, m1, m2⟩, hk⟩ := he
    obtain ⟨s1, _⟩ := hsrc el m1 e m2
    have hk' : shuffleKey els.length e = r := by simpa using hk
    rw [← hk']
    unfold shuffleKey
    rw [Int.natCast_emod]
    congr 1
    omega
  refine ⟨els', h1, h2, ?_, hkey, ?_, ?_⟩
  · have hl : els'.flatMap EdgeList.list = (List.range els.length).flatMap
        (fun r => (els.flatMap EdgeList.list).filter (fun e => decide (shuffleKey els.length e = r))) := by
      rw [List.flatMap, List.flatMap]
      congr 1
      apply List.ext_getElem?
      intro r
      rw [List.getElem?_map, List.getElem?_map]
      by_cases hr : r < els.length
      · rw [List.getElem?_range hr, List.getElem?_eq_getElem (show r < els'.length by omega)]
        simp only [Option.map_some]
        rw [hall r _ (List.getElem?_eq_getElem (by omega))]
      · rw [List.getElem?_eq_none (by omega), List.getElem?_eq_none (by simpa using hr)]
        rfl
    rw [hl]
    exact bucket_perm _ _ List.nodup_range _ (fun a _ => List.mem_range.mpr (Nat.mod_lt _ h0))
  · intro r s x y hx hy e he f hf hsf
    have a := hkey r x hx e he
    have b := hkey s y hy f hf
    rw [hsf, b] at a
    omega
  · intro r el el' ha hb
    obtain ⟨w1, w2, w3, w4⟩ := h3 r el el' ha hb
    exact ⟨w1, w2, w3, by rw [w4]; exact List.filter_sublist⟩

/-- Three ranks, one of them without edges. -/
def shuffleSample : List (EdgeList Int) :=
  [EdgeList.sample, EdgeList.ofList ⟨0, 0, 0⟩ 5 6 [], EdgeList.ofList ⟨0, 0, 0⟩ 5 6 [⟨4, 2, 20⟩, ⟨1, 2, 21⟩, ⟨1, 3, 22⟩]]

example : (shuffleEdges (fun _ _ => ⟨0, 0, 0⟩) 2 shuffleSample).map (fun els => els.map (fun el => el.list.map Edge.val)) =
    some [[10, 12, 13, 20, 21, 22], [14, 15], [11]] := by decide +kernel

theorem shuffleSample_wf : ∀ el ∈ shuffleSample, el.WF := by
  unfold shuffleSample
  simp only [List.forall_mem_cons]
  exact ⟨EdgeList.ofList_wf .., EdgeList.ofList_wf .., EdgeList.ofList_wf .., by simp⟩

theorem shuffleSample_src : ∀ el ∈ shuffleSample, ∀ e ∈ el.list, 1 ≤ e.src ∧ e.src ≤ (IMAX : Int) := by
  unfold shuffleSample EdgeList.sample IMAX
  simp only [List.forall_mem_cons, EdgeList.ofList_list]
  decide

theorem shuffleSample_total : (shuffleSample.flatMap EdgeList.list).length ≤ IMAX := by
  unfold shuffleSample EdgeList.sample IMAX
  simp [EdgeList.ofList_list]

example : ∃ els', shuffleEdges (fun _ _ => ⟨0, 0, 0⟩) 5 shuffleSample = some els' ∧
    (els'.flatMap EdgeList.list).Perm (shuffleSample.flatMap EdgeList.list) := by
  obtain ⟨els', h1, _, h3, _⟩ := shuffle_moves_every_edge_once (T := 5) (by decide) (els := shuffleSample) (by decide)
    (by unfold IMAX; decide) shuffleSample_wf shuffleSample_src shuffleSample_total (fun _ _ => ⟨0, 0, 0⟩)
  exact ⟨els', h1, h3⟩

/-! ### C34 -/

theorem mapM_range_exists {α : Type} {f : Nat → Option α} {P : Nat → α → Prop} {k : Nat}
    (h : ∀ r, r < k → ∃ y, f r = some y ∧ P r y) :
    ∃ ys, (List.range k).mapM f = some ys ∧ ys.length = k ∧ ∀ r y, ys[r]? = some y → P r y := by
  by_cases hk : k = 0
  · subst hk
    exact ⟨[], rfl, rfl, by intro r y h; simp at h⟩
  · obtain ⟨y0, _, _⟩ := h 0 (by omega)
    have : Nonempty α := ⟨y0⟩
    have h' : ∀ r, ∃ y, r < k → f r = some y ∧ P r y := by
      intro r
      by_cases hr : r < k
      · obtain ⟨y, h1⟩ := h r hr
        exact ⟨y, fun _ => h1⟩
      · exact ⟨y0, fun h => absurd h hr⟩
    obtain ⟨y, hy⟩ := Classical.axiomOfChoice h'
    refine ⟨(List.range k).map y, mapM_some (fun r hr => (hy r (List.mem_range.mp hr)).1), by simp, ?_⟩
    intro r z hz
    obtain ⟨hr, _⟩ := List.getElem?_eq_some_iff.mp hz
    have hr' : r < k := by simpa using hr
    rw [List.getElem?_map, List.getElem?_range hr', Option.map_some, Option.some.injEq] at hz
    rw [← hz]
    exact (hy r hr').2

/-- C34: `remove_duplicate_edges`, executed by all ranks, however the edges are distributed and whatever sorting
algorithm each rank's library uses: over all ranks together, no two remaining edges have the same source and
destination, every pair of the input remains, and every remaining edge is one of the input's edges. -/
theorem duplicates_are_removed_across_ranks {T : Nat} (hT : 0 < T) {els : List (EdgeList E)} (h0 : 0 < els.length)
    (hmax : els.length ≤ IMAX) (hwf : ∀ el ∈ els, el.WF) (hsrc : ∀ el ∈ els, ∀ e ∈ el.list, 1 ≤ e.src ∧ e.src ≤ (IMAX : Int))
    (htot : (els.flatMap EdgeList.list).length ≤ IMAX) (g : Nat → Nat → Edge E)
    {sort : Nat → List (Edge E) → List (Edge E)} (hsort : ∀ r, SortsBy compareForDuplicates (sort r)) :
    ∃ els' : List (EdgeList E), removeDuplicates sort g T els = some els' ∧ els'.length = els.length ∧
      ((els'.flatMap EdgeList.list).map (fun e => (e.src, e.dst))).Nodup ∧
      (∀ e ∈ els'.flatMap EdgeList.list, e ∈ els.flatMap EdgeList.list) ∧
      (∀ e ∈ els.flatMap EdgeList.list, ∃ f ∈ els'.flatMap EdgeList.list, f.src = e.src ∧ f.dst = e.dst) ∧
      ∀ (r : Nat) (el el' : EdgeList E), els[r]? = some el → els'[r]? = some el' → el'.WF ∧ el'.m = el.m ∧ el'.n = el.n := by
  have hmid : ∃ mid : List (EdgeList E), (if els.length = 1 then some els else shuffleEdges g T els) = some mid ∧
      mid.length = els.length ∧ (∀ e, e ∈ mid.flatMap EdgeList.list ↔ e ∈ els.flatMap EdgeList.list) ∧
      (∀ (r s : Nat) (x y : EdgeList E), mid[r]? = some x → mid[s]? = some y → ∀ e ∈ x.list, ∀ f ∈ y.list, e.src = f.src → r = s) ∧
      ∀ (r : Nat) (el el' : EdgeList E), els[r]? = some el → mid[r]? = some el' → el'.WF ∧ el'.m = el.m ∧ el'.n = el.n := by
    by_cases h1 : els.length = 1
    · rw [if_pos h1]
      refine ⟨els, rfl, rfl, fun _ => Iff.rfl, ?_, ?_⟩
      · intro r s x y hx hy _ _ _ _ _
        obtain ⟨hr, _⟩ := List.getElem?_eq_some_iff.mp hx
        obtain ⟨hs, _⟩ := List.getElem?_eq_some_iff.mp hy
        omega
      · intro r el el' ha hb
        rw [ha, Option.some.injEq] at hb
        subst hb
        exact ⟨hwf _ (List.mem_of_getElem? ha), rfl, rfl⟩
    · rw [if_neg h1]
      obtain ⟨mid, m1, m2, m3, _, m5, m6⟩ := shuffle_moves_every_edge_once hT h0 hmax hwf hsrc htot g
      exact ⟨mid, m1, m2, fun e => m3.mem_iff, m5, fun r el el' ha hb =>
        ⟨(m6 r el el' ha hb).1, (m6 r el el' ha hb).2.1, (m6 r el el' ha hb).2.2.1⟩⟩
  obtain ⟨mid, m1, m2, m3, m4, m5⟩ := hmid
  have hwfm : ∀ r (h : r < mid.length), mid[r].WF := fun r h =>
    (m5 r _ _ (List.getElem?_eq_getElem (show r < els.length by omega)) (List.getElem?_eq_getElem h)).1
  obtain ⟨els', h1, h2, h3⟩ := mapM_range_exists (k := mid.length)
    (f := fun r => do
      let el ← mid[r]?
      removeDuplicatesLocal (sort r) (g r) el)
    (P := fun r el' => ∃ h : r < mid.length, el'.WF ∧ el'.m = mid[r].m ∧ el'.n = mid[r].n ∧ (∀ e ∈ el'.list, e ∈ mid[r].list) ∧
      (el'.list.map Edge.ends).Nodup ∧ ∀ e ∈ mid[r].list, ∃ f ∈ el'.list, f.ends = e.ends) (by
    intro r hr
    rw [List.getElem?_eq_getElem hr]
    obtain ⟨el', a1, a2, a3, a4, a5, a6, _, a7⟩ := removeDuplicatesLocal_spec (hsort r) (g r) (hwfm r hr)
    exact ⟨el', a1, hr, a2, a3, a4, a5, a6, a7⟩)
  unfold removeDuplicates
  rw [m1]
  refine ⟨els', h1, by omega, ?_, ?_, ?_, ?_⟩
  · rw [List.map_flatMap]
    rw [List.nodup_flatMap]
    refine ⟨?_, ?_⟩
    · intro el' hel
      obtain ⟨r, hr, rfl⟩ := List.getElem_of_mem hel
      obtain ⟨_, _, _, _, _, hn, _⟩ := h3 r _ (List.getElem?_eq_getElem hr)
      exact hn
    · rw [List.pairwise_iff_getElem]
      intro r s hr hs hrs
      show List.Disjoint _ _
      intro x hx hy
      obtain ⟨e, he, rfl⟩ := List.mem_map.mp hx
      obtain ⟨f, hf, hef⟩ := List.mem_map.mp hy
      obtain ⟨hr', _, _, _, hsub, _⟩ := h3 r _ (List.getElem?_eq_getElem hr)
      obtain ⟨hs', _, _, _, hsub2, _⟩ := h3 s _ (List.getElem?_eq_getElem hs)
      have := m4 r s _ _ (List.getElem?_eq_getElem hr') (List.getElem?_eq_getElem hs') e (hsub e he) f (hsub2 f hf)
        (Prod.mk.inj hef).1.symm
      omega
  · intro e he
    obtain ⟨el', hel, hm⟩ := List.mem_flatMap.mp he
    obtain ⟨r, hr, rfl⟩ := List.getElem_of_mem hel
    obtain ⟨hr', _, _, _, hsub, _⟩ := h3 r _ (List.getElem?_eq_getElem hr)
    exact (m3 e).mp (List.mem_flatMap.mpr ⟨_, List.getElem_mem hr', hsub e hm⟩)
  · intro e he
    obtain ⟨el, hel, hm⟩ := List.mem_flatMap.mp ((m3 e).mpr he)
    obtain ⟨r, hr, rfl⟩ := List.getElem_of_mem hel
    obtain ⟨hr', _, _, _, _, _, hex⟩ := h3 r _ (List.getElem?_eq_getElem (show r < els'.length by omega))
    obtain ⟨f, f1, f2⟩ := hex e hm
    exact ⟨f, List.mem_flatMap.mpr ⟨_, List.getElem_mem (by omega), f1⟩, (Prod.mk.inj f2).1, (Prod.mk.inj f2).2⟩
  · intro r el el' ha hb
    obtain ⟨hr', w1, w2, w3, _⟩ := h3 r el' hb
    obtain ⟨_, v2, v3⟩ := m5 r el _ ha (List.getElem?_eq_getElem hr')
    exact ⟨w1, by rw [w2, v2], by rw [w3, v3]⟩

theorem compareForDuplicates_sorts : SortsBy (compareForDuplicates (E := E)) (insSort compareForDuplicates) := by
  apply insSort_sorts
  · intro a b h
    rw [compareForDuplicates_eq, decide_eq_true_eq] at h
    rw [compareForDuplicates_eq, decide_eq_false_iff_not]
    omega
  · intro a b c h1 h2
    rw [compareForDuplicates_eq, decide_eq_false_iff_not] at *
    omega

example : (removeDuplicates (fun _ => insSort compareForDuplicates) (fun _ _ => ⟨0, 0, 0⟩) 2 shuffleSample).map
    (fun els => els.map (fun el => el.list.map (fun e => (e.src, e.dst)))) =
    some [[(1, 2), (1, 3), (4, 2)], [(2, 4), (5, 5)], [(3, 3)]] := by decide +kernel

example : ∃ els', removeDuplicates (fun _ => insSort compareForDuplicates) (fun _ _ => ⟨0, 0, 0⟩) 3 shuffleSample = some els' ∧
    ((els'.flatMap EdgeList.list).map (fun e => (e.src, e.dst))).Nodup := by
  obtain ⟨els', h1, _, h3, _⟩ := duplicates_are_removed_across_ranks (T := 3) (by decide) (els := shuffleSample) (by decide)
    (by unfold IMAX; decide) shuffleSample_wf shuffleSample_src shuffleSample_total (fun _ _ => ⟨0, 0, 0⟩)
    (fun _ => compareForDuplicates_sorts)
  exact ⟨els', h1, h3⟩

/-! ### C38 -/

/-- C38: `remove_empty_columns` (ids one-based): the table it returns lists, increasingly, exactly the ids that occur as
destinations; the destinations are renumbered onto `1..k` without gaps, where `k` is the table's length and the new
column count; the table maps every new id back to the old one; everything else is unchanged. -/
theorem empty_columns_are_removed (g : Nat → Nat) {el : EdgeList E} (hwf : el.WF) {n : Nat} (hn : el.n = (n : Int)) (hmax : n < IMAX)
    (hdst : ∀ e ∈ el.list, 1 ≤ e.dst ∧ e.dst ≤ (n : Int)) :
    ∃ (el' : EdgeList E) (rem : Arr Nat), removeEmptyColumns g el = some (el', rem) ∧ el'.WF ∧ el'.m = el.m ∧
      el'.n = (rem.size : Int) ∧
      rem.toList.Pairwise (· < ·) ∧ (∀ c : Nat, c ∈ rem.toList ↔ ∃ e ∈ el.list, e.dst = (c : Int)) ∧
      List.Forall₂ (fun e f => f.src = e.src ∧ f.val = e.val ∧ 1 ≤ f.dst ∧ f.dst ≤ (rem.size : Int) ∧
        ∃ c, rem.read (f.dst - 1).toNat = some c ∧ e.dst = (c : Int)) el.list el'.list ∧
      ∀ d : Nat, 1 ≤ d → d ≤ rem.size → ∃ f ∈ el'.list, f.dst = (d : Int) := by
  obtain ⟨el', rem, exist, h1, h2, h3, h4, h5, h6, h7, h8⟩ := removeEmptyColumns_spec g hwf hn hmax hdst
  have hsize : rem.size = (List.range n).countP exist := by
    have := congrArg List.length h7
    rw [Arr.toList_length, List.length_map, ← List.countP_eq_length_filter] at this
    exact this
  have hback : ∀ i, i < el.nnz → ∃ c : Nat, (el.edges.get i).dst = (c : Int) + 1 ∧
      (el'.edges.get i).dst = ((List.range c).countP exist : Int) + 1 ∧ (List.range c).countP exist < rem.size ∧
      rem.read ((List.range c).countP exist) = some (c + 1) := by
    intro i hi
    obtain ⟨c, c1, c2, c3, c4⟩ := h8 i hi
    have hlt := countP_range_mono exist (show c + 1 ≤ n by omega)
    rw [countP_range_succ, if_pos c3] at hlt
    refine ⟨c, c1, by rw [c4], by omega, ?_⟩
    rw [← Arr.toList_getElem?, h7, List.getElem?_map, filter_range_getElem? c2 c3]
    rfl
  refine ⟨el', rem, h1, h2, h3, h4, ?_, ?_, ?_, ?_⟩
  · rw [h7, List.pairwise_map]
    exact (List.pairwise_lt_range.filter _).imp (fun h => by omega)
  · intro c
    rw [h7, List.mem_map]
    constructor
    · rintro ⟨b, hb, rfl⟩
      obtain ⟨e, e1, e2⟩ := (h6 b).mp (List.mem_filter.mp hb).2
      exact ⟨e, e1, by omega⟩
    · rintro ⟨e, e1, e2⟩
      obtain ⟨r1, r2⟩ := hdst e e1
      refine ⟨c - 1, List.mem_filter.mpr ⟨List.mem_range.mpr (by omega), (h6 _).mpr ⟨e, e1, by omega⟩⟩, by omega⟩
  · rw [List.forall₂_iff_get]
    refine ⟨by simp [h5], ?_⟩
    intro i hi hi'
    have hin : i < el.nnz := by simpa using hi
    obtain ⟨c, c1, c2, c3, c4⟩ := hback i hin
    obtain ⟨c', _, _, _, d4⟩ := h8 i hin
    have g1 : el.list.get ⟨i, hi⟩ = el.edges.get i := by simp [EdgeList.list]
    have g2 : el'.list.get ⟨i, hi'⟩ = el'.edges.get i := by simp [EdgeList.list]
    rw [g1, g2]
    refine ⟨by rw [d4], by rw [d4], by omega, by omega, c + 1, ?_, by rw [c1]; rfl⟩
    rw [c2]
    have : (((List.range c).countP exist : Int) + 1 - 1).toNat = (List.range c).countP exist := by omega
    rw [this, c4]
  · intro d d1 d2
    have hd : d - 1 < rem.toList.length := by rw [Arr.toList_length]; omega
    have hmem := List.getElem_mem hd
    have hget : rem.toList[d - 1]? = some (rem.toList[d - 1]) := List.getElem?_eq_getElem hd
    generalize rem.toList[d - 1] = x at hmem hget
    have hx := hmem
    rw [h7, List.mem_map] at hx
    obtain ⟨b, hb, rfl⟩ := hx
    obtain ⟨hb1, hb2⟩ := List.mem_filter.mp hb
    rw [List.mem_range] at hb1
    have hidx : (List.range b).countP exist = d - 1 := by
      have hg := filter_range_getElem? hb1 hb2
      have hnd : rem.toList.Nodup := by
        rw [h7]
        exact (List.nodup_range.filter _).map (fun a b h => by simpa using h)
      have hg2 : rem.toList[(List.range b).countP exist]? = some (b + 1) := by
        rw [h7, List.getElem?_map, hg]; rfl
      have hlt2 : (List.range b).countP exist < rem.toList.length := (List.getElem?_eq_some_iff.mp hg2).1
      exact (List.Nodup.getElem_inj_iff hnd (hi := hlt2) (hj := hd)).mp (by
        have a1 := (List.getElem?_eq_some_iff.mp hg2).2
        have a2 := (List.getElem?_eq_some_iff.mp hget).2
        rw [a1, a2])
    obtain ⟨e, e1, e2⟩ := (h6 b).mp hb2
    obtain ⟨i, hi, rfl⟩ := Arr.mem_pre.mp e1
    obtain ⟨c, c1, c2, _, _⟩ := hback i hi
    obtain rfl : c = b := by omega
    refine ⟨el'.edges.get i, Arr.mem_pre.mpr ⟨i, by omega, rfl⟩, ?_⟩
    rw [c2]
    omega

example : (removeEmptyColumns (fun _ => 0) EdgeList.sample).map (fun r => (r.1.list.map (fun e => e.dst), r.1.n, r.2.toList)) =
    some ([1, 2, 1, 1, 4, 3], 4, [2, 3, 4, 5]) := by decide +kernel

example : ∃ el' rem, removeEmptyColumns (fun _ => 0) EdgeList.sample = some (el', rem) ∧ rem.toList.Pairwise (· < ·) := by
  obtain ⟨el', rem, h1, _, _, _, h5, _⟩ := empty_columns_are_removed (fun _ => 0) (el := EdgeList.sample) (n := 6)
    (EdgeList.ofList_wf ..) rfl (by unfold IMAX; decide)
    (by unfold EdgeList.sample; rw [EdgeList.ofList_list]; decide)
  exact ⟨el', rem, h1, h5⟩

/-! ### C51 -/

/-- C51: `randomize_edgelist_square`, whatever the random numbers, renames the vertices by a permutation of `1..m`, the
same for sources and destinations and for the lists of all ranks, and changes nothing else — provided all ids are within
`1..m`. -/
theorem random_renumbering_is_a_permutation_partial (g rand : Nat → Nat) {m : Nat} (hmax : m ≤ IMAX) :
    ∃ π : Nat → Nat, (∀ v, 1 ≤ v → v ≤ m → 1 ≤ π v ∧ π v ≤ m) ∧
      (∀ u v, 1 ≤ u → u ≤ m → 1 ≤ v → v ≤ m → π u = π v → u = v) ∧
      (∀ w, 1 ≤ w → w ≤ m → ∃ v, 1 ≤ v ∧ v ≤ m ∧ π v = w) ∧
      ∀ el : EdgeList E, el.WF → el.m = (m : Int) →
        (∀ e ∈ el.list, 1 ≤ e.src ∧ e.src ≤ (m : Int) ∧ 1 ≤ e.dst ∧ e.dst ≤ (m : Int)) →
        ∃ el' : EdgeList E, randomizeSquare g rand el = some el' ∧ el'.WF ∧ el'.m = el.m ∧ el'.n = el.n ∧
          el'.list = el.list.map (fun e => { e with src := (π e.src.toNat : Int), dst := (π e.dst.toNat : Int) }) := by
  obtain ⟨π, h5, h6, h7⟩ := randomizeSquare_spec g rand hmax
  refine ⟨π, h5, h6, ?_, h7 E⟩
  intro w w1 w2
  have hsub : (List.range m).map (fun i => π (i + 1) - 1) ⊆ List.range m := by
    intro x hx
    obtain ⟨i, hi, rfl⟩ := List.mem_map.mp hx
    rw [List.mem_range] at hi ⊢
    have := h5 (i + 1) (by omega) (by omega)
    omega
  have hnd : ((List.range m).map (fun i => π (i + 1) - 1)).Nodup := by
    refine List.Nodup.map_on ?_ List.nodup_range
    intro a ha b hb hab
    rw [List.mem_range] at ha hb
    have p1 := h5 (a + 1) (by omega) (by omega)
    have p2 := h5 (b + 1) (by omega) (by omega)
    have := h6 (a + 1) (b + 1) (by omega) (by omega) (by omega) (by omega) (by omega)
    omega
  have hperm := (List.subperm_of_subset hnd hsub).perm_of_length_le (by simp)
  have hw := hperm.mem_iff.mpr (List.mem_range.mpr (show w - 1 < m by omega))
  obtain ⟨i, hi, hw⟩ := List.mem_map.mp hw
  rw [List.mem_range] at hi
  have := h5 (i + 1) (by omega) (by omega)
  exact ⟨i + 1, by omega, by omega, by omega⟩

example : (randomizeSquare (fun _ => 0) (fun i => 3 * i + 1) EdgeList.sample).map (fun el => el.list.map (fun e => (e.src, e.dst))) =
    some [(4, 5), (3, 3), (1, 5), (4, 5), (2, 2), (5, 1)] := by decide +kernel

example : ∃ el', randomizeSquare (fun _ => 0) (fun i => 3 * i + 1) EdgeList.sample = some el' ∧ el'.list.length = 6 := by
  obtain ⟨π, _, _, _, h⟩ := random_renumbering_is_a_permutation_partial (E := Int) (fun _ => 0) (fun i => 3 * i + 1)
    (m := 5) (by unfold IMAX; decide)
  obtain ⟨el', h1, _, _, _, h7⟩ := h EdgeList.sample (EdgeList.ofList_wf ..) rfl
    (by unfold EdgeList.sample; rw [EdgeList.ofList_list]; decide)
  exact ⟨el', h1, by rw [h7, List.length_map]; unfold EdgeList.sample; rw [EdgeList.ofList_list]; rfl⟩

/-- On a list that is not square, a destination above `m` makes `randomize_edgelist_square` read outside its table,
although the list is valid for its `m` and `n`. -/
theorem random_renumbering_needs_square :
    randomizeSquare (fun _ => 0) (fun i => i) (EdgeList.ofList ⟨0, 0, 0⟩ 2 3 [⟨1, 3, (7 : Int)⟩]) |>.isNone := by
  decide +kernel

end GraphMat

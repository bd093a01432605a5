import Verif.Model.EdgeIO
import Verif.Lemmas.EdgeList
import Verif.Props.EdgeFile

/-!
# Lemmas about `get_dimensions`
-/
namespace GraphMat

variable {E : Type}

theorem threadMax_aux (f : Edge E → Int) (edges : Arr (Edge E)) : ∀ (is : List Nat) (a : Int), (∀ i ∈ is, i < edges.size) →
    is.foldlM (fun acc i => do
      let e ← edges.read i
      some (max acc (f e))) a = some ((is.map (fun i => f (edges.get i))).foldl max a) := by
  intro is
  induction is with
  | nil => intro a _; rfl
  | cons i is ih =>
    intro a h
    have hi : edges.read i = some (edges.get i) := by
      unfold Arr.read
      rw [if_pos (h i (List.mem_cons_self))]
    rw [List.foldlM_cons, hi]
    exact ih _ (fun j hj => h j (List.mem_cons_of_mem _ hj))

theorem threadMax_eq (f : Edge E → Int) {edges : Arr (Edge E)} {is : List Nat} (h : ∀ i ∈ is, i < edges.size) :
    threadMax f edges is = some ((is.map (fun i => f (edges.get i))).foldl max INT_MIN) :=
  threadMax_aux f edges is INT_MIN h

theorem mapM_some_map {α β : Type} {f : α → Option β} {h : α → β} : ∀ {l : List α}, (∀ a ∈ l, f a = some (h a)) →
    l.mapM f = some (l.map h) := by
  intro l
  induction l with
  | nil => intro _; rfl
  | cons a l ih =>
    intro hf
    rw [List.mapM_cons, hf a List.mem_cons_self, ih (fun b hb => hf b (List.mem_cons_of_mem _ hb))]
    rfl

theorem localMax_eq (f : Edge E → Int) {el : EdgeList E} (hwf : el.WF) {chunks : List (List Nat)}
    (hp : chunks.flatten.Perm (List.range el.nnz)) :
    localMax f el.edges chunks = some (topOf (el.list.map f)) := by
  have hlt : ∀ c ∈ chunks, ∀ i ∈ c, i < el.nnz := by
    intro c hc i hi
    exact List.mem_range.1 (hp.mem_iff.1 (List.mem_flatten.2 ⟨c, hc, hi⟩))
  unfold localMax
  rw [mapM_some_map (h := fun c => (c.map (fun i => f (el.edges.get i))).foldl max INT_MIN)
    (fun c hc => threadMax_eq f (fun i hi => Nat.lt_of_lt_of_le (hlt c hc i hi) hwf))]
  show some _ = some _
  congr 1
  apply topOf_eq
  intro b
  rw [foldl_max_le]
  refine and_congr_right ?_
  intro h0
  constructor
  · intro h x hx
    rw [List.mem_map] at hx
    obtain ⟨e, he, rfl⟩ := hx
    unfold EdgeList.list at he
    obtain ⟨i, hi, rfl⟩ := List.mem_map.1 he
    obtain ⟨c, hc, hic⟩ := List.mem_flatten.1 (hp.mem_iff.2 hi)
    exact (foldl_max_le.1 (h _ (List.mem_map.2 ⟨c, hc, rfl⟩))).2 _ (List.mem_map.2 ⟨i, hic, rfl⟩)
  · intro h x hx
    obtain ⟨c, hc, rfl⟩ := List.mem_map.1 hx
    refine foldl_max_le.2 ⟨by unfold INT_MIN; omega, ?_⟩
    intro y hy
    obtain ⟨i, hi, rfl⟩ := List.mem_map.1 hy
    refine h _ (List.mem_map.2 ⟨el.edges.get i, ?_, rfl⟩)
    unfold EdgeList.list
    exact List.mem_map.2 ⟨i, List.mem_range.2 (hlt c hc i hi), rfl⟩

theorem allMax_eq {l : List Int} (hne : l ≠ []) (h0 : ∀ x ∈ l, 0 ≤ x) : allMax l = some (topOf l) := by
  cases l with
  | nil => exact absurd rfl hne
  | cons x l =>
    show some _ = some _
    congr 1
    apply topOf_eq
    intro b
    rw [foldl_max_le]
    have := h0 x List.mem_cons_self
    constructor
    · rintro ⟨h1, h2⟩
      refine ⟨by omega, ?_⟩
      intro y hy
      rcases List.mem_cons.1 hy with rfl | hy
      · exact h1
      · exact h2 y hy
    · rintro ⟨h1, h2⟩
      exact ⟨h2 x List.mem_cons_self, fun y hy => h2 y (List.mem_cons_of_mem _ hy)⟩

theorem getDimensions_eq {els : List (EdgeList E)} (hne : els ≠ []) (hwf : ∀ el ∈ els, el.WF)
    {chunks : Nat → List (List Nat)}
    (hp : ∀ (r : Nat) (h : r < els.length), (chunks r).flatten.Perm (List.range els[r].nnz)) :
    getDimensions chunks els = some (topOf ((els.flatMap EdgeList.list).map Edge.src),
      topOf ((els.flatMap EdgeList.list).map Edge.dst)) := by
  have one : ∀ f : Edge E → Int, els.zipIdx.mapM (fun er => localMax f er.1.edges (chunks er.2)) =
      some (els.map (fun el => topOf (el.list.map f))) := by
    intro f
    rw [mapM_some_map (h := fun er => topOf (er.1.list.map f))]
    · congr 1
      rw [show (fun er : EdgeList E × Nat => topOf (er.1.list.map f)) = (fun el : EdgeList E => topOf (el.list.map f)) ∘ Prod.fst
        from rfl, ← List.map_map, List.zipIdx_map_fst]
    · rintro ⟨el, r⟩ her
      obtain ⟨h1, h2⟩ := List.mem_zipIdx' her
      have h2 : el = els[r] := h2
      show localMax f el.edges (chunks r) = some (topOf (el.list.map f))
      rw [h2]
      exact localMax_eq f (hwf _ (List.getElem_mem _)) (hp r h1)
  have two : ∀ f : Edge E → Int, allMax (els.map (fun el => topOf (el.list.map f))) =
      some (topOf ((els.flatMap EdgeList.list).map f)) := by
    intro f
    rw [allMax_eq (by simpa using hne)]
    · congr 1
      rw [topOf_flat els (fun el => el.list.map f), List.map_flatMap]
    · intro x hx
      obtain ⟨el, _, rfl⟩ := List.mem_map.1 hx
      exact (topOf_le.1 (le_refl _)).1
  unfold getDimensions
  rw [one, one]
  show (do
    let m ← allMax _
    let n ← allMax _
    some (m, n)) = _
  rw [two, two]
  rfl

end GraphMat

import Verif.Model.SpMat

/-!
# A sorting function

The models take the library's sorting function as a parameter with the hypothesis `SortsBy`.  Insertion
sort satisfies it: the hypothesis is not vacuous, and examples can be evaluated.
-/
namespace GraphMat

variable {α : Type}

/-- Insert behind all elements that are not greater. -/
def insertBy (lt : α → α → Bool) (x : α) : List α → List α
  | [] => [x]
  | y :: l => if lt y x then y :: insertBy lt x l else x :: y :: l

/-- Insertion sort. -/
def insSort (lt : α → α → Bool) : List α → List α
  | [] => []
  | x :: l => insertBy lt x (insSort lt l)

theorem insertBy_perm (lt : α → α → Bool) (x : α) (l : List α) : (insertBy lt x l).Perm (x :: l) := by
  induction l with
  | nil => exact List.Perm.refl _
  | cons y l ih =>
    unfold insertBy
    split
    · exact (ih.cons y).trans (List.Perm.swap x y l)
    · exact List.Perm.refl _

theorem insSort_perm (lt : α → α → Bool) (l : List α) : (insSort lt l).Perm l := by
  induction l with
  | nil => exact List.Perm.refl _
  | cons x l ih => exact (insertBy_perm lt x _).trans (ih.cons x)

theorem insSort_sorts {lt : α → α → Bool} (hasym : ∀ a b, lt a b = true → lt b a = false)
    (htrans : ∀ a b c, lt b a = false → lt c b = false → lt c a = false) : SortsBy lt (insSort lt) := by
  intro l
  refine ⟨insSort_perm lt l, ?_⟩
  induction l with
  | nil => exact List.Pairwise.nil
  | cons x l ih =>
    show (insertBy lt x (insSort lt l)).Pairwise _
    generalize insSort lt l = s at ih ⊢
    induction s with
    | nil => simp [insertBy]
    | cons y s ihs =>
      rw [List.pairwise_cons] at ih
      unfold insertBy
      split
      · rename_i h
        rw [List.pairwise_cons]
        refine ⟨?_, ihs ih.2⟩
        intro z hz
        have := (insertBy_perm lt x s).mem_iff.mp hz
        rw [List.mem_cons] at this
        rcases this with rfl | hz
        · exact hasym _ _ h
        · exact ih.1 z hz
      · rename_i h
        have h : lt y x = false := by simpa using h
        rw [List.pairwise_cons]
        refine ⟨?_, List.pairwise_cons.mpr ih⟩
        intro z hz
        rw [List.mem_cons] at hz
        rcases hz with rfl | hz
        · exact h
        · exact htrans _ _ _ h (ih.1 z hz)

variable {E V : Type}

theorem insSort_tileId : SortsBy (compareTileId (E := E)) (insSort compareTileId) := by
  apply insSort_sorts
  · intro a b h; unfold compareTileId at *; simp at *; omega
  · intro a b c h1 h2; unfold compareTileId at *; simp at *; omega

theorem compareDcsc_eq (a b : TEdge E) : compareDcsc a b =
    decide (a.tile < b.tile ∨ (a.tile = b.tile ∧ (a.dst < b.dst ∨ (a.dst = b.dst ∧ a.src < b.src)))) := by
  unfold compareDcsc
  by_cases h1 : a.tile < b.tile
  · rw [if_pos h1]; simp; omega
  rw [if_neg h1]
  by_cases h2 : a.tile > b.tile
  · rw [if_pos h2]; simp; omega
  rw [if_neg h2]
  by_cases h3 : a.dst < b.dst
  · rw [if_pos h3]; simp; omega
  rw [if_neg h3]
  by_cases h4 : a.dst > b.dst
  · rw [if_pos h4]; simp; omega
  rw [if_neg h4]
  by_cases h5 : a.src < b.src
  · rw [if_pos h5]; simp; omega
  rw [if_neg h5, ite_self]; simp; omega

theorem insSort_dcsc : SortsBy (compareDcsc (E := E)) (insSort compareDcsc) := by
  apply insSort_sorts
  · intro a b h; rw [compareDcsc_eq] at *; simp at *; omega
  · intro a b c h1 h2; rw [compareDcsc_eq] at *; simp at *; omega

/-- All library sorts are insertion sorts. -/
def Sorts.ins : Sorts E :=
  { owner := fun _ => insSort compareTileId, tile := fun _ => insSort compareTileId,
    dcsc := fun _ _ _ => insSort compareDcsc }

/-- An environment for examples: all fresh memory is filled with garbage. -/
def LoadEnv.sample (v : V) (x : E) : LoadEnv V E :=
  { sA := Sorts.ins, sAT := Sorts.ins, gA := fun _ _ _ => ⟨fun _ => x, fun _ _ => 9⟩,
    gAT := fun _ _ _ => ⟨fun _ => x, fun _ _ => 9⟩, gv := fun _ _ => ⟨5, fun _ => v, fun _ => 9, fun _ => v, fun _ => 7⟩,
    ga := fun _ _ => ⟨5, fun _ => true, fun _ => 9, fun _ => true, fun _ => 7⟩, d := fun _ => v }

end GraphMat

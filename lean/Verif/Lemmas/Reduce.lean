import Verif.Spec.Reduce
import Verif.Lemmas.Transfer

namespace GraphMat

variable {U : Type}

theorem RTree.leaves_ne (t : RTree U) : t.leaves ≠ [] := by
  induction t with
  | leaf u => simp [RTree.leaves]
  | node l r ihl _ => simp [RTree.leaves, ihl]

theorem Reduces.nil (add : U → U → U) : Reduces add [] none := .inl ⟨rfl, rfl⟩

theorem Reduces.one (add : U → U → U) (u : U) : Reduces add [u] (some u) :=
  .inr ⟨.leaf u, .refl _, rfl⟩

theorem Reduces.perm {add : U → U → U} {l l' : List U} {a : Option U} (h : Reduces add l a) (hp : l.Perm l') :
    Reduces add l' a := by
  rcases h with ⟨rfl, rfl⟩ | ⟨t, h1, h2⟩
  · rw [List.nil_perm] at hp; exact .inl ⟨hp, rfl⟩
  · exact .inr ⟨t, h1.trans hp, h2⟩

theorem Reduces.join {add : U → U → U} {l l' : List U} {a b : Option U} (h : Reduces add l a)
    (h' : Reduces add l' b) : Reduces add (l ++ l') (combine add a b) := by
  rcases h with ⟨rfl, rfl⟩ | ⟨t, h1, rfl⟩
  · simpa [combine] using h'
  · rcases h' with ⟨rfl, rfl⟩ | ⟨t', h1', rfl⟩
    · rw [List.append_nil]; exact .inr ⟨t, h1, rfl⟩
    · exact .inr ⟨.node t t', h1.append h1', rfl⟩

theorem Reduces.none_iff {add : U → U → U} {l : List U} {a : Option U} (h : Reduces add l a) :
    a = none ↔ l = [] := by
  rcases h with ⟨rfl, rfl⟩ | ⟨t, h1, rfl⟩
  · simp
  · constructor
    · intro h; cases h
    · rintro rfl; exact absurd h1.eq_nil (RTree.leaves_ne t)

/-- Adding a list of values one after the other. -/
def accum (add : U → U → U) (a : Option U) (l : List U) : Option U :=
  l.foldl (fun acc u => combine add acc (some u)) a

theorem Reduces.accum {add : U → U → U} {l : List U} {a : Option U} (h : Reduces add l a) (us : List U) :
    Reduces add (l ++ us) (accum add a us) := by
  unfold GraphMat.accum
  induction us generalizing l a with
  | nil => simpa using h
  | cons u us ih =>
    have := ih (h.join (Reduces.one add u))
    rw [List.append_assoc] at this
    exact this

theorem accum_append (add : U → U → U) (a : Option U) (l l' : List U) :
    accum add a (l ++ l') = accum add (accum add a l) l' := by
  unfold accum; rw [List.foldl_append]

theorem accum_some (add : U → U → U) (a : U) (l : List U) : accum add (some a) l = some (l.foldl add a) := by
  induction l generalizing a with
  | nil => rfl
  | cons u l ih => exact ih (add a u)

theorem accum_none (add : U → U → U) (l : List U) : accum add none l = reduceAll add l := by
  cases l with
  | nil => rfl
  | cons u l => exact accum_some add u l

theorem RTree.eval_eq {add : U → U → U} (hassoc : ∀ a b c, add (add a b) c = add a (add b c)) (t : RTree U) :
    reduceAll add t.leaves = some (t.eval add) := by
  have key : ∀ (t : RTree U) (a : U), t.leaves.foldl add a = add a (t.eval add) := by
    intro t
    induction t with
    | leaf u => intro a; rfl
    | node l r ihl ihr =>
      intro a
      show (l.leaves ++ r.leaves).foldl add a = _
      rw [List.foldl_append, ihl, ihr, hassoc]; rfl
  induction t with
  | leaf u => rfl
  | node l r ihl _ =>
    show reduceAll add (l.leaves ++ r.leaves) = some (add (l.eval add) (r.eval add))
    cases hl : l.leaves with
    | nil => exact absurd hl l.leaves_ne
    | cons u us =>
      rw [hl] at ihl
      simp only [reduceAll, Option.some.injEq] at ihl
      show some ((us ++ r.leaves).foldl add u) = _
      rw [List.foldl_append, ihl, key]

theorem reduceAll_perm {add : U → U → U} (hassoc : ∀ a b c, add (add a b) c = add a (add b c))
    (hcomm : ∀ a b, add a b = add b a) {l l' : List U} (h : l.Perm l') : reduceAll add l = reduceAll add l' := by
  have hr : ∀ a b c, add (add a b) c = add (add a c) b := fun a b c => by rw [hassoc, hcomm b c, ← hassoc]
  have hfold : ∀ {l l' : List U}, l.Perm l' → ∀ a, l.foldl add a = l'.foldl add a := by
    intro l l' h
    induction h with
    | nil => intro a; rfl
    | cons x _ ih => intro a; exact ih _
    | swap x y l => intro a; show l.foldl add (add (add a y) x) = l.foldl add (add (add a x) y); rw [hr]
    | trans _ _ ih1 ih2 => intro a; rw [ih1, ih2]
  induction h with
  | nil => rfl
  | cons x h _ => exact congrArg some (hfold h x)
  | swap x y l => show some (l.foldl add (add y x)) = some (l.foldl add (add x y)); rw [hcomm]
  | trans _ _ ih1 ih2 => rw [ih1, ih2]

/-- With an associative and commutative operation there is only one result. -/
theorem Reduces.unique {add : U → U → U} (hassoc : ∀ a b c, add (add a b) c = add a (add b c))
    (hcomm : ∀ a b, add a b = add b a) {l : List U} {a : Option U} (h : Reduces add l a) : a = reduceAll add l := by
  rcases h with ⟨rfl, rfl⟩ | ⟨t, h1, rfl⟩
  · rfl
  · rw [← reduceAll_perm hassoc hcomm h1, RTree.eval_eq hassoc]

end GraphMat

import Verif.Spec.TileLife

namespace GraphMat

/-- the heap is fine and its live blocks are those of the list -/
def Heap.Has (h : Heap) (L : List (Nat × Alloc)) : Prop := h.Ok ∧ h.live.Perm L

/-- `p` runs on every heap with the blocks `L`, and `Q` holds of the result and the blocks afterwards -/
def Runs {α : Type} (p : HeapM α) (L : List (Nat × Alloc)) (Q : α → List (Nat × Alloc) → Prop) : Prop :=
  ∀ h : Heap, h.Has L → ∃ a h' L', p h = some (a, h') ∧ h'.Has L' ∧ Q a L'

/-- the block a pointer points to -/
def own (k : Alloc) : Ptr → List (Nat × Alloc)
  | .block b => [(b, k)]
  | _ => []

/-- the pointer was set to a block -/
def IsBlock (p : Ptr) : Prop := ∃ b, p = .block b

theorem Runs.bind {α β : Type} {p : HeapM α} {f : α → HeapM β} {L : List (Nat × Alloc)}
    {Q : α → List (Nat × Alloc) → Prop} {R : β → List (Nat × Alloc) → Prop}
    (hp : Runs p L Q) (hf : ∀ a L', Q a L' → Runs (f a) L' R) : Runs (p >>= f) L R := by
  intro h hh
  obtain ⟨a, h1, L1, e1, hh1, q⟩ := hp h hh
  obtain ⟨b, h2, L2, e2, hh2, r⟩ := hf a L1 q h1 hh1
  refine ⟨b, h2, L2, ?_, hh2, r⟩
  show (p h).bind (fun x => f x.1 x.2) = _
  rw [e1]
  exact e2

theorem Runs.pure {α : Type} {a : α} {L : List (Nat × Alloc)} {Q : α → List (Nat × Alloc) → Prop} (q : Q a L) :
    Runs (Pure.pure a) L Q := fun h hh => ⟨a, h, L, rfl, hh, q⟩

theorem Runs.mono {α : Type} {p : HeapM α} {L : List (Nat × Alloc)} {Q R : α → List (Nat × Alloc) → Prop}
    (hp : Runs p L Q) (hq : ∀ a L', Q a L' → R a L') : Runs p L R := by
  intro h hh
  obtain ⟨a, h1, L1, e1, hh1, q⟩ := hp h hh
  exact ⟨a, h1, L1, e1, hh1, hq _ _ q⟩

theorem Runs.perm {α : Type} {p : HeapM α} {L L' : List (Nat × Alloc)} {Q : α → List (Nat × Alloc) → Prop}
    (hp : Runs p L' Q) (hL : L.Perm L') : Runs p L Q := fun h hh => hp h ⟨hh.1, hh.2.trans hL⟩

theorem runs_allocate (k : Alloc) (L : List (Nat × Alloc)) :
    Runs (allocate k) L (fun p X => IsBlock p ∧ X = own k p ++ L) := by
  intro h hh
  refine ⟨.block h.next, ⟨h.next + 1, (h.next, k) :: h.live⟩, (h.next, k) :: L, rfl, ⟨⟨?_, ?_⟩, hh.2.cons _⟩, ⟨_, rfl⟩, rfl⟩
  · rw [List.map_cons, List.nodup_cons]
    refine ⟨fun hm => ?_, hh.1.1⟩
    obtain ⟨b, hb, e⟩ := List.mem_map.1 hm
    have := hh.1.2 b hb
    omega
  · intro b hb
    rcases List.mem_cons.1 hb with e | hb
    · rw [e]
      exact Nat.lt_succ_self _
    · exact Nat.lt_succ_of_lt (hh.1.2 b hb)

theorem runs_release {k : Alloc} {p : Ptr} {L L' : List (Nat × Alloc)} (hp : IsBlock p) (hL : L.Perm (own k p ++ L')) :
    Runs (release k p) L (fun _ X => X = L') := by
  obtain ⟨b, rfl⟩ := hp
  intro h hh
  have hm : (b, k) ∈ h.live := hh.2.mem_iff.2 (hL.mem_iff.2 (by simp [own]))
  refine ⟨(), { h with live := h.live.erase (b, k) }, L', ?_, ⟨⟨?_, ?_⟩, ?_⟩, rfl⟩
  · show (if (b, k) ∈ h.live then _ else none) = _
    rw [if_pos hm]
  · exact hh.1.1.sublist (List.Sublist.map _ List.erase_sublist)
  · exact fun x hx => hh.1.2 x (List.mem_of_mem_erase hx)
  · have := (hh.2.trans hL).erase (b, k)
    refine this.trans ?_
    show (((b, k) :: L').erase (b, k)).Perm L'
    rw [List.erase_cons_head]

theorem runs_touch {k : Alloc} {p : Ptr} {L L' : List (Nat × Alloc)} (hp : IsBlock p) (hL : L.Perm (own k p ++ L')) :
    Runs (touch p) L (fun _ X => X = L) := by
  obtain ⟨b, rfl⟩ := hp
  intro h hh
  have hm : (b, k) ∈ h.live := hh.2.mem_iff.2 (hL.mem_iff.2 (by simp [own]))
  refine ⟨(), h, L, ?_, hh, rfl⟩
  show (if b ∈ h.live.map Prod.fst then _ else none) = _
  rw [if_pos (List.mem_map.2 ⟨_, hm, rfl⟩)]

/-- permutations of lists put together from the same parts -/
macro "perm_parts" : tactic =>
  `(tactic| (refine List.perm_iff_count.2 (fun x => ?_); simp only [List.count_append, List.count_nil] <;> omega))

/-- A program that gives back what it takes. -/
theorem Runs.balanced {α : Type} {p : HeapM α} (hp : ∀ L, Runs p L (fun _ X => X.Perm L)) : Balanced p := by
  intro h hh
  obtain ⟨a, h', L', e, hh', q⟩ := hp h.live h ⟨hh, List.Perm.refl _⟩
  exact ⟨a, h', e, hh'.2.trans q⟩

/-- What is needed of a tile class: `blocks` are the blocks of a tile, `Good` its invariant; `ok` says which archives may be
loaded. -/
structure TileContract {T : Type} (C : TileClass T) (blocks : T → List (Nat × Alloc)) (Good : T → Prop) (ok : Nat → Prop) :
    Prop where
  empty : Good C.empty ∧ blocks C.empty = []
  make : ∀ k L, 0 < k → Runs (C.make k) L (fun t X => Good t ∧ X.Perm (blocks t ++ L))
  make0 : ∀ L, Runs (C.make 0) L (fun t X => Good t ∧ X.Perm (blocks t ++ L))
  load : ∀ k L, ok k → Runs (C.load k C.empty) L (fun t X => Good t ∧ X.Perm (blocks t ++ L))
  use : ∀ t L, Good t → Runs (C.use t) (blocks t ++ L) (fun _ X => X = blocks t ++ L)
  destroy : ∀ t L, Good t → Runs (C.destroy t) (blocks t ++ L) (fun _ X => X.Perm L)

variable {T : Type} {C : TileClass T} {blocks : T → List (Nat × Alloc)} {Good : T → Prop} {ok : Nat → Prop}

/-- the archives that a step loads are allowed -/
def TileOp.Allowed (ok : Nat → Prop) : TileOp → Prop
  | .restore k => ok k
  | _ => True

theorem flatMap_at (f : T → List (Nat × Alloc)) (ts : List T) (i : Nat) (t : T) (h : ts[i]? = some t) :
    (ts.flatMap f).Perm (f t ++ (ts.eraseIdx i).flatMap f) := by
  induction ts generalizing i with
  | nil => simp at h
  | cons a ts ih =>
    cases i with
    | zero =>
      simp only [List.getElem?_cons_zero, Option.some.injEq] at h
      subst h
      simp
    | succ i =>
      simp only [List.getElem?_cons_succ] at h
      have := ih i h
      simp only [List.flatMap_cons, List.eraseIdx_cons_succ]
      refine (this.append_left (f a)).trans ?_
      perm_parts

theorem TileContract.step (hC : TileContract C blocks Good ok) (op : TileOp) (hop : op.Allowed ok) (ts : List T)
    (hts : ∀ t ∈ ts, Good t) (L : List (Nat × Alloc)) :
    Runs (op.run C ts) (ts.flatMap blocks ++ L) (fun ts' X => (∀ t ∈ ts', Good t) ∧ X.Perm (ts'.flatMap blocks ++ L)) := by
  cases op with
  | empty =>
    refine Runs.pure ⟨?_, ?_⟩
    · intro t ht
      rcases List.mem_cons.1 ht with rfl | ht
      · exact hC.empty.1
      · exact hts t ht
    · rw [List.flatMap_cons, hC.empty.2, List.nil_append]
  | make k =>
    refine Runs.bind (Q := fun t X => Good t ∧ X.Perm (blocks t ++ (ts.flatMap blocks ++ L))) ?_ ?_
    · rcases Nat.eq_zero_or_pos k with rfl | hk
      · exact hC.make0 _
      · exact hC.make k _ hk
    · rintro t X ⟨hg, hX⟩
      refine Runs.pure ⟨?_, ?_⟩
      · intro u hu
        rcases List.mem_cons.1 hu with rfl | hu
        · exact hg
        · exact hts u hu
      · rw [List.flatMap_cons, List.append_assoc]
        exact hX
  | restore k =>
    refine Runs.bind (hC.load k (ts.flatMap blocks ++ L) hop) ?_
    rintro t X ⟨hg, hX⟩
    refine Runs.pure ⟨?_, ?_⟩
    · intro u hu
      rcases List.mem_cons.1 hu with rfl | hu
      · exact hg
      · exact hts u hu
    · rw [List.flatMap_cons, List.append_assoc]
      exact hX
  | use i =>
    cases hi : ts[i]? with
    | none =>
      simp only [TileOp.run, hi]
      exact Runs.pure ⟨hts, List.Perm.refl _⟩
    | some t =>
      simp only [TileOp.run, hi]
      have ht := hts t (List.mem_of_getElem? hi)
      have hp := (flatMap_at blocks ts i t hi).append_right L
      rw [List.append_assoc] at hp
      refine Runs.bind ((hC.use t _ ht).perm hp) ?_
      rintro _ X rfl
      exact Runs.pure ⟨hts, hp.symm⟩
  | destroy i =>
    cases hi : ts[i]? with
    | none =>
      simp only [TileOp.run, hi]
      exact Runs.pure ⟨hts, List.Perm.refl _⟩
    | some t =>
      simp only [TileOp.run, hi]
      have ht := hts t (List.mem_of_getElem? hi)
      have hp := (flatMap_at blocks ts i t hi).append_right L
      rw [List.append_assoc] at hp
      refine Runs.bind ((hC.destroy t _ ht).perm hp) ?_
      intro _ X hX
      exact Runs.pure ⟨fun u hu => hts u (List.mem_of_mem_eraseIdx hu), hX⟩

theorem TileContract.steps (hC : TileContract C blocks Good ok) (ops : List TileOp) (hop : ∀ op ∈ ops, op.Allowed ok) :
    ∀ (ts : List T), (∀ t ∈ ts, Good t) → ∀ L, Runs (runTileOps C ops ts) (ts.flatMap blocks ++ L)
      (fun ts' X => (∀ t ∈ ts', Good t) ∧ X.Perm (ts'.flatMap blocks ++ L)) := by
  induction ops with
  | nil => exact fun ts hts L => Runs.pure ⟨hts, List.Perm.refl _⟩
  | cons op ops ih =>
    intro ts hts L
    refine Runs.bind (hC.step op (hop _ List.mem_cons_self) ts hts L) ?_
    rintro ts' X ⟨hg, hX⟩
    exact (ih (fun o ho => hop o (List.mem_cons_of_mem _ ho)) ts' hg L).perm hX

theorem TileContract.all (hC : TileContract C blocks Good ok) :
    ∀ (ts : List T), (∀ t ∈ ts, Good t) → ∀ L, Runs (destroyAll C ts) (ts.flatMap blocks ++ L) (fun _ X => X.Perm L) := by
  intro ts
  induction ts with
  | nil => exact fun _ L => Runs.pure (List.Perm.refl _)
  | cons t ts ih =>
    intro hts L
    rw [List.flatMap_cons, List.append_assoc]
    refine Runs.bind (hC.destroy t _ (hts t List.mem_cons_self)) ?_
    intro _ X hX
    exact (ih (fun u hu => hts u (List.mem_cons_of_mem _ hu)) L).perm hX

theorem TileContract.lives (hC : TileContract C blocks Good ok) (ops : List TileOp) (hop : ∀ op ∈ ops, op.Allowed ok) :
    Balanced (tileLives C ops) := by
  refine Runs.balanced (fun L => ?_)
  refine Runs.bind (hC.steps ops hop [] (by simp) L) ?_
  rintro ts X ⟨hg, hX⟩
  exact (hC.all ts hg L).perm hX

end GraphMat

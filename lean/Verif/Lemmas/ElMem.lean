import Verif.Lemmas.GraphMem
import Verif.Spec.ElLife

namespace GraphMat

/-- the array of a list -/
def elBlocks (e : ElMem) : List (Nat × Alloc) := if 0 < e.nnz then own .mm e.edges else []

/-- a list with edges has an array -/
def ElGood (e : ElMem) : Prop := 0 < e.nnz → IsBlock e.edges

/-- what a function on a list does: the number of edges afterwards and the number of arrays forgotten -/
def ElDoes (f : ElMem → HeapM ElMem) (post lost : Nat → Nat) : Prop :=
  ∀ e L, ElGood e → Runs (f e) (elBlocks e ++ L) (fun e' X => ElGood e' ∧ e'.nnz = post e.nnz ∧
    ∃ M : List (Nat × Alloc), M.length = lost e.nnz ∧ X.Perm (elBlocks e' ++ (M ++ L)))

theorem ElDoes.comp {f g : ElMem → HeapM ElMem} {p l p' l' : Nat → Nat} (hf : ElDoes f p l) (hg : ElDoes g p' l') :
    ElDoes (fun e => f e >>= g) (fun n => p' (p n)) (fun n => l n + l' (p n)) := by
  intro e L he
  refine (hf e L he).bind ?_
  rintro a X ⟨ha, hn, M, hM, hX⟩
  refine ((hg a (M ++ L) ha).perm hX).mono ?_
  rintro b Y ⟨hb, hn', M', hM', hY⟩
  refine ⟨hb, by rw [hn', hn], M' ++ M, ?_, hY.trans (by perm_parts)⟩
  rw [List.length_append, hM', hM, hn]
  exact Nat.add_comm _ _

theorem elDoes_pure : ElDoes pure (fun n => n) (fun _ => 0) :=
  fun _ _ he => Runs.pure ⟨he, rfl, [], rfl, List.Perm.refl _⟩

/-- a function that leaves the list as it is -/
theorem elDoes_same {f : ElMem → HeapM Unit}
    (hf : ∀ e L, ElGood e → Runs (f e) (elBlocks e ++ L) (fun _ X => X.Perm (elBlocks e ++ L))) :
    ElDoes (fun e => f e >>= fun _ => pure e) (fun n => n) (fun _ => 0) := by
  intro e L he
  refine (hf e L he).bind ?_
  intro _ X hX
  exact Runs.pure ⟨he, rfl, [], rfl, hX⟩

theorem newEl_runs (k : Nat) (L : List (Nat × Alloc)) :
    Runs (newEl k) L (fun e X => ElGood e ∧ e.nnz = k ∧ X = elBlocks e ++ L) := by
  unfold newEl
  split
  · rename_i hk
    refine (runs_allocate .mm L).bind ?_
    rintro p _ ⟨hp, rfl⟩
    refine Runs.pure ⟨fun _ => hp, rfl, ?_⟩
    simp only [elBlocks, if_pos hk]
  · rename_i hk
    refine Runs.pure ⟨fun h => absurd h (by decide), (by show 0 = k; omega), rfl⟩

theorem clear_runs {e : ElMem} (he : ElGood e) (L : List (Nat × Alloc)) :
    Runs e.clear (elBlocks e ++ L) (fun e' X => e' = ElMem.fresh ∧ X = L) := by
  show Runs ((if 0 < e.nnz then release .mm e.edges else pure ()) >>= fun _ => pure ElMem.fresh) _ _
  refine Runs.bind (Q := fun _ X => X = L) ?_ ?_
  · unfold elBlocks
    split
    · rename_i h
      exact runs_release (he h) (List.Perm.refl _)
    · exact Runs.pure rfl
  · rintro _ X rfl
    exact Runs.pure ⟨rfl, rfl⟩

theorem visit_runs {e : ElMem} (he : ElGood e) {L : List (Nat × Alloc)} (hL : ∀ x ∈ elBlocks e, x ∈ L) :
    Runs e.visit L (fun _ X => X = L) := by
  unfold ElMem.visit
  split
  · rename_i h
    refine ptr_touch (k := .mm) (he h) ?_
    simpa only [elBlocks, if_pos h] using hL
  · exact Runs.pure rfl

theorem replace_runs {e : ElMem} (he : ElGood e) (e' : ElMem) (k : Nat) (L : List (Nat × Alloc)) :
    Runs (e.replace e' k) (elBlocks e ++ L) (fun r X => r = ⟨e'.edges, k⟩ ∧ X = L) := by
  refine (clear_runs he L).bind ?_
  rintro _ X ⟨-, rfl⟩
  exact Runs.pure ⟨rfl, rfl⟩

theorem kept_eq (e : ElMem) (keep : Nat → Bool) : e.kept keep = keptOf keep e.nnz := by
  unfold ElMem.kept keptOf
  rw [List.countP_eq_length_filter]

theorem kept_le (e : ElMem) (keep : Nat → Bool) : e.kept keep ≤ e.nnz := by
  unfold ElMem.kept
  exact Nat.le_trans (List.length_filter_le _ _) (Nat.le_of_eq List.length_range)

/-- a list with fewer edges in the same array -/
theorem shrink_blocks {e : ElMem} (he : ElGood e) {k : Nat} (hk : k ≤ e.nnz) :
    ElGood ⟨e.edges, k⟩ ∧ ∃ M : List (Nat × Alloc), M.length = emptied e.nnz k ∧ (elBlocks e).Perm (elBlocks ⟨e.edges, k⟩ ++ M) := by
  refine ⟨fun h => he (Nat.lt_of_lt_of_le h hk), ?_⟩
  unfold emptied elBlocks
  by_cases h : 0 < k
  · refine ⟨[], ?_, ?_⟩
    · rw [if_neg (fun h' => by omega)]
      rfl
    · rw [if_pos h, if_pos (by omega), List.append_nil]
  · by_cases h' : 0 < e.nnz
    · refine ⟨own .mm e.edges, ?_, ?_⟩
      · rw [if_pos ⟨h', by omega⟩, own_length (he h')]
      · rw [if_neg h, if_pos h', List.nil_append]
    · refine ⟨[], ?_, ?_⟩
      · rw [if_neg (fun h'' => h' h''.1)]
        rfl
      · rw [if_neg h, if_neg h', List.nil_append]

theorem copyKept_runs {e e' : ElMem} (he : ElGood e) (he' : ElGood e') (hn : e'.nnz = e.nnz) (keep : Nat → Bool)
    {L : List (Nat × Alloc)} (hL : ∀ x ∈ elBlocks e, x ∈ L) (hL' : ∀ x ∈ elBlocks e', x ∈ L) :
    Runs (e.copyKept e' keep) L (fun _ X => X = L) := by
  refine (visit_runs he hL).bind ?_
  rintro _ X rfl
  split
  · rename_i h
    have : 0 < e'.nnz := by have := kept_le e keep; omega
    refine ptr_touch (k := .mm) (he' this) ?_
    simpa only [elBlocks, if_pos this] using hL'
  · exact Runs.pure rfl

theorem removeSelfedges_does (keep : Nat → Bool) :
    ElDoes (ElMem.removeSelfedges keep) (keptOf keep) (fun n => emptied n (keptOf keep n)) := by
  intro e L he
  refine (newEl_runs e.nnz (elBlocks e ++ L)).bind ?_
  rintro e' _ ⟨he', hn, rfl⟩
  refine (copyKept_runs he he' hn keep (by simp +contextual) (by simp +contextual)).bind ?_
  rintro _ _ rfl
  refine ((replace_runs he e' (e.kept keep) (elBlocks e' ++ L)).perm (by perm_parts)).mono ?_
  rintro _ X ⟨rfl, rfl⟩
  obtain ⟨hg, M, hM, hP⟩ := shrink_blocks he' (k := e.kept keep) (by rw [hn]; exact kept_le e keep)
  refine ⟨hg, kept_eq e keep, M, by rw [hM, hn, kept_eq], ?_⟩
  refine (hP.append_right L).trans (by perm_parts)

theorem filterByRow_does (keep : Nat → Bool) :
    ElDoes (ElMem.filterByRow keep) (keptOf keep) (fun n => emptied n (keptOf keep n)) := by
  intro e L he
  refine (visit_runs he (by simp +contextual)).bind ?_
  rintro _ _ rfl
  obtain ⟨hg, M, hM, hP⟩ := shrink_blocks he (k := e.kept keep) (kept_le e keep)
  refine Runs.pure ⟨hg, kept_eq e keep, M, by rw [hM, kept_eq], ?_⟩
  refine (hP.append_right L).trans (by perm_parts)

theorem filterEdges_runs (keep : Nat → Bool) {e : ElMem} (he : ElGood e) {L : List (Nat × Alloc)}
    (hL : ∀ x ∈ elBlocks e, x ∈ L) :
    Runs (e.filterEdges keep) L (fun r X => ElGood r ∧ r.nnz = keptOf keep e.nnz ∧
      ∃ M : List (Nat × Alloc), M.length = emptied e.nnz (keptOf keep e.nnz) ∧ X.Perm (elBlocks r ++ (M ++ L))) := by
  refine (newEl_runs e.nnz L).bind ?_
  rintro e' _ ⟨he', hn, rfl⟩
  refine (copyKept_runs he he' hn keep (fun x hx => List.mem_append_right _ (hL x hx)) (by simp +contextual)).bind ?_
  rintro _ _ rfl
  obtain ⟨hg, M, hM, hP⟩ := shrink_blocks he' (k := e.kept keep) (by rw [hn]; exact kept_le e keep)
  refine Runs.pure ⟨hg, kept_eq e keep, M, by rw [hM, hn, kept_eq], ?_⟩
  refine (hP.append_right L).trans (by perm_parts)

theorem removeDuplicatesLocal_does (keep : Nat → Bool) :
    ElDoes (ElMem.removeDuplicatesLocal keep) (distinctOf keep) (fun _ => 0) := by
  intro e L he
  unfold ElMem.removeDuplicatesLocal
  split
  · rename_i hpos
    refine (visit_runs he (by simp +contextual)).bind ?_
    rintro _ _ rfl
    refine (newEl_runs e.nnz (elBlocks e ++ L)).bind ?_
    rintro e' _ ⟨he', hn, rfl⟩
    have hb : elBlocks e' = own .mm e'.edges := by simp only [elBlocks, hn, if_pos hpos]
    refine (ptr_touch (k := .mm) (he' (by omega)) (by rw [hb]; simp +contextual)).bind ?_
    rintro _ _ rfl
    refine ((replace_runs he e' _ (elBlocks e' ++ L)).perm (by perm_parts)).mono ?_
    rintro _ X ⟨rfl, rfl⟩
    refine ⟨fun _ => he' (by omega), ?_, [], rfl, ?_⟩
    · simp only [distinctOf, if_neg (Nat.pos_iff_ne_zero.1 hpos), List.countP_eq_length_filter]
    · rw [hb]
      simp only [elBlocks]
      rw [if_pos (by omega)]
      exact List.Perm.refl _
  · rename_i hz
    have : e.nnz = 0 := by omega
    refine Runs.pure ⟨he, ?_, [], rfl, List.Perm.refl _⟩
    simp only [distinctOf, this, if_pos]

theorem shuffle_does (k : Nat) : ElDoes (ElMem.shuffle k) (fun _ => k) (fun _ => 0) := by
  intro e L he
  unfold ElMem.shuffle
  refine (runs_allocate .newArr _).bind ?_
  rintro p1 _ ⟨h1, rfl⟩
  refine (runs_allocate .newArr _).bind ?_
  rintro p2 _ ⟨h2, rfl⟩
  refine (runs_allocate .newArr _).bind ?_
  rintro p3 _ ⟨h3, rfl⟩
  refine (runs_allocate .newArr _).bind ?_
  rintro p4 _ ⟨h4, rfl⟩
  refine (visit_runs he (by simp +contextual)).bind ?_
  rintro _ _ rfl
  refine (ptr_touch (k := .newArr) h1 (by simp +contextual)).bind ?_
  rintro _ _ rfl
  refine (ptr_touch (k := .newArr) h2 (by simp +contextual)).bind ?_
  rintro _ _ rfl
  refine (ptr_touch (k := .newArr) h3 (by simp +contextual)).bind ?_
  rintro _ _ rfl
  refine (ptr_touch (k := .newArr) h4 (by simp +contextual)).bind ?_
  rintro _ _ rfl
  refine (runs_allocate .newArr _).bind ?_
  rintro p5 _ ⟨h5, rfl⟩
  refine (runs_allocate .newArr _).bind ?_
  rintro p6 _ ⟨h6, rfl⟩
  refine (runs_allocate .newArr _).bind ?_
  rintro p7 _ ⟨h7, rfl⟩
  refine (runs_allocate .newArr _).bind ?_
  rintro p8 _ ⟨h8, rfl⟩
  refine (runs_allocate .newArr _).bind ?_
  rintro p9 _ ⟨h9, rfl⟩
  refine (runs_allocate .newArr _).bind ?_
  rintro p10 _ ⟨h10, rfl⟩
  refine (newEl_runs k _).bind ?_
  rintro r _ ⟨hr, hn, rfl⟩
  refine (visit_runs hr (by simp +contextual)).bind ?_
  rintro _ _ rfl
  generalize hB : elBlocks r ++ (elBlocks e ++ L) = B
  refine (runs_release (L' := own .newArr p9 ++ (own .newArr p5 ++ (own .newArr p6 ++ (own .newArr p7 ++ (own .newArr p8 ++
    (own .newArr p1 ++ (own .newArr p2 ++ (own .newArr p3 ++ (own .newArr p4 ++ B))))))))) h10 (by rw [← hB]; perm_parts)).bind ?_
  rintro _ _ rfl
  refine (runs_release h9 (List.Perm.refl _)).bind ?_
  rintro _ _ rfl
  refine (runs_release h5 (List.Perm.refl _)).bind ?_
  rintro _ _ rfl
  refine (runs_release h6 (List.Perm.refl _)).bind ?_
  rintro _ _ rfl
  refine (runs_release h7 (List.Perm.refl _)).bind ?_
  rintro _ _ rfl
  refine (runs_release h8 (List.Perm.refl _)).bind ?_
  rintro _ _ rfl
  refine (runs_release h1 (List.Perm.refl _)).bind ?_
  rintro _ _ rfl
  refine (runs_release h2 (List.Perm.refl _)).bind ?_
  rintro _ _ rfl
  refine (runs_release h3 (List.Perm.refl _)).bind ?_
  rintro _ _ rfl
  refine (runs_release h4 (List.Perm.refl _)).bind ?_
  rintro _ _ rfl
  refine ((replace_runs he r k (elBlocks r ++ L)).perm (by rw [← hB]; perm_parts)).mono ?_
  rintro _ X ⟨rfl, rfl⟩
  have : (⟨r.edges, k⟩ : ElMem) = r := by rw [← hn]
  rw [this]
  exact ⟨hr, hn, [], rfl, List.Perm.refl _⟩

theorem removeDuplicates_does (nrank k : Nat) (keep : Nat → Bool) :
    ElDoes (ElMem.removeDuplicates nrank k keep) (fun n => distinctOf keep (if nrank = 1 then n else k)) (fun _ => 0) := by
  intro e L he
  unfold ElMem.removeDuplicates
  split
  · exact removeDuplicatesLocal_does keep e L he
  · exact (shuffle_does k).comp (removeDuplicatesLocal_does keep) e L he

theorem bidirectional_does : ElDoes ElMem.bidirectional (fun n => n * 2) (fun _ => 0) := by
  intro e L he
  refine (newEl_runs _ _).bind ?_
  rintro e' _ ⟨he', hn, rfl⟩
  refine (visit_runs he (by simp +contextual)).bind ?_
  rintro _ _ rfl
  refine (visit_runs he' (by simp +contextual)).bind ?_
  rintro _ _ rfl
  refine ((replace_runs he e' e'.nnz (elBlocks e' ++ L)).perm (by perm_parts)).mono ?_
  rintro _ X ⟨rfl, rfl⟩
  exact ⟨he', hn, [], rfl, List.Perm.refl _⟩

theorem visit_does : ElDoes (fun e => e.visit >>= fun _ => pure e) (fun n => n) (fun _ => 0) :=
  elDoes_same (fun _ _ he => (visit_runs he (by simp +contextual)).mono (fun _ _ h => by rw [h]))

theorem randomizeSquare_runs (e : ElMem) (L : List (Nat × Alloc)) (he : ElGood e) :
    Runs e.randomizeSquare (elBlocks e ++ L) (fun _ X => X.Perm (elBlocks e ++ L)) := by
  unfold ElMem.randomizeSquare
  refine (runs_allocate .newArr _).bind ?_
  rintro p1 _ ⟨h1, rfl⟩
  refine (runs_allocate .newArr _).bind ?_
  rintro p2 _ ⟨h2, rfl⟩
  refine (ptr_touch (k := .newArr) h1 (by simp +contextual)).bind ?_
  rintro _ _ rfl
  refine (ptr_touch (k := .newArr) h2 (by simp +contextual)).bind ?_
  rintro _ _ rfl
  refine (runs_release h2 (List.Perm.refl _)).bind ?_
  rintro _ _ rfl
  refine (visit_runs he (by simp +contextual)).bind ?_
  rintro _ _ rfl
  refine (ptr_touch (k := .newArr) h1 (by simp +contextual)).bind ?_
  rintro _ _ rfl
  refine (runs_release h1 (List.Perm.refl _)).mono ?_
  rintro _ _ rfl
  exact List.Perm.refl _

theorem randomizeSquare_does : ElDoes (fun e => e.randomizeSquare >>= fun _ => pure e) (fun n => n) (fun _ => 0) :=
  elDoes_same randomizeSquare_runs

theorem removeEmptyColumns_does :
    ElDoes (fun e => e.removeEmptyColumns >>= fun p => release .mm p >>= fun _ => pure e) (fun n => n) (fun _ => 0) := by
  intro e L he
  refine Runs.bind (Q := fun p X => IsBlock p ∧ X.Perm (own .mm p ++ (elBlocks e ++ L))) ?_ ?_
  · unfold ElMem.removeEmptyColumns
    refine (runs_allocate .newArr _).bind ?_
    rintro p1 _ ⟨h1, rfl⟩
    refine (runs_allocate .newArr _).bind ?_
    rintro p2 _ ⟨h2, rfl⟩
    refine (ptr_touch (k := .newArr) h1 (by simp +contextual)).bind ?_
    rintro _ _ rfl
    refine (ptr_touch (k := .newArr) h2 (by simp +contextual)).bind ?_
    rintro _ _ rfl
    refine (visit_runs he (by simp +contextual)).bind ?_
    rintro _ _ rfl
    refine (runs_allocate .mm _).bind ?_
    rintro p3 _ ⟨h3, rfl⟩
    refine (ptr_touch (k := .mm) h3 (by simp +contextual)).bind ?_
    rintro _ _ rfl
    refine (runs_release (L' := own .newArr p2 ++ (own .mm p3 ++ (elBlocks e ++ L))) h1 (by perm_parts)).bind ?_
    rintro _ _ rfl
    refine (runs_release h2 (List.Perm.refl _)).bind ?_
    rintro _ _ rfl
    exact Runs.pure ⟨h3, List.Perm.refl _⟩
  · rintro p X ⟨hp, hX⟩
    refine (runs_release hp hX).bind ?_
    rintro _ _ rfl
    exact Runs.pure ⟨he, rfl, [], rfl, List.Perm.refl _⟩

theorem loadEl_does (k : Nat) :
    ElDoes (loadEl k) (fun _ => k) (fun n => (if 0 < n then 1 else 0) + (if k = 0 then 1 else 0)) := by
  intro e L he
  refine (runs_allocate .mm _).bind ?_
  rintro p _ ⟨hp, rfl⟩
  have hold : (elBlocks e).length = if 0 < e.nnz then 1 else 0 := by
    unfold elBlocks
    split
    · rename_i h
      exact own_length (he h)
    · rfl
  show Runs ((if 0 < k then touch p else pure ()) >>= fun _ => pure (⟨p, k⟩ : ElMem)) _ _
  refine Runs.bind (Q := fun _ X => X = own .mm p ++ (elBlocks e ++ L)) ?_ ?_
  · split
    · exact ptr_touch (k := .mm) hp (by simp +contextual)
    · exact Runs.pure rfl
  · rintro _ _ rfl
    rcases Nat.eq_zero_or_pos k with rfl | hk
    · refine Runs.pure ⟨fun _ => hp, rfl, own .mm p ++ elBlocks e, ?_, ?_⟩
      · rw [List.length_append, hold, own_length hp]
        exact Nat.add_comm _ _
      · show List.Perm _ ([] ++ _)
        perm_parts
    · refine Runs.pure ⟨fun _ => hp, rfl, elBlocks e, ?_, ?_⟩
      · rw [hold]
        beta_reduce
        rw [if_neg (show ¬ k = 0 by omega), Nat.add_zero]
      · rw [show elBlocks ⟨p, k⟩ = own .mm p from if_pos hk]

theorem clear_does : ElDoes ElMem.clear (fun _ => 0) (fun _ => 0) := by
  intro e L he
  refine (clear_runs he L).mono ?_
  rintro _ X ⟨rfl, rfl⟩
  exact ⟨fun h => absurd h (by decide), rfl, [], rfl, List.Perm.refl _⟩

theorem elAct_does (nrank : Nat) (a : ElAct) : ElDoes (a.run nrank) (a.count nrank) a.lost := by
  cases a with
  | load k => exact loadEl_does k
  | selfedges keep => exact removeSelfedges_does keep
  | duplicates k keep => exact removeDuplicates_does nrank k keep
  | shuffle k => exact shuffle_does k
  | bidirectional => exact bidirectional_does
  | visit => exact visit_does
  | randomize => exact randomizeSquare_does
  | columns => exact removeEmptyColumns_does
  | rows keep => exact filterByRow_does keep
  | clear => exact clear_does

/-! ### Many lists -/

theorem elStep_runs (nrank : Nat) (op : ElStep) (es : List ElMem) (hes : ∀ e ∈ es, ElGood e) (L : List (Nat × Alloc)) :
    Runs (op.run nrank es) (es.flatMap elBlocks ++ L) (fun es' X => (∀ e ∈ es', ElGood e) ∧
      es'.map ElMem.nnz = op.counts nrank (es.map ElMem.nnz) ∧ ∃ M : List (Nat × Alloc),
      M.length = op.lost (es.map ElMem.nnz) ∧ X.Perm (es'.flatMap elBlocks ++ (M ++ L))) := by
  have hcons : ∀ e, ElGood e → ∀ u ∈ e :: es, ElGood u := by
    intro e he u hu
    rcases List.mem_cons.1 hu with rfl | hu
    · exact he
    · exact hes u hu
  cases op with
  | declare => exact Runs.pure ⟨hcons _ (fun h => absurd h (by decide)), rfl, [], rfl, List.Perm.refl _⟩
  | make k =>
    refine (newEl_runs k _).bind ?_
    rintro e _ ⟨he, hn, rfl⟩
    refine Runs.pure ⟨hcons _ he, ?_, [], rfl, ?_⟩
    · rw [List.map_cons, hn]
      rfl
    · rw [List.flatMap_cons]
      perm_parts
  | act i a =>
    cases hi : es[i]? with
    | none =>
      simp only [ElStep.run, hi]
      refine Runs.pure ⟨hes, ?_, [], ?_, List.Perm.refl _⟩
      · simp only [ElStep.counts]
        rw [List.modify_eq_self]
        rw [List.length_map]
        exact List.getElem?_eq_none_iff.1 hi
      · simp only [ElStep.lost, List.getElem?_map, hi]
        rfl
    | some e =>
      simp only [ElStep.run, hi]
      have he := hes e (List.mem_of_getElem? hi)
      have hp := (flatMap_at elBlocks es i e hi).append_right L
      rw [List.append_assoc] at hp
      refine ((elAct_does nrank a e _ he).perm hp).bind ?_
      rintro e' X ⟨he', hn, M, hM, hX⟩
      refine Runs.pure ⟨?_, ?_, M, ?_, ?_⟩
      · intro u hu
        rcases List.mem_or_eq_of_mem_set hu with h | rfl
        · exact hes u h
        · exact he'
      · have hlt : i < es.length := (List.getElem?_eq_some_iff.1 hi).1
        have hev : es[i] = e := (List.getElem?_eq_some_iff.1 hi).2
        simp only [ElStep.counts, List.map_set, hn]
        rw [List.modify_eq_set_getElem?]
        simp only [List.getElem?_map, hi]
        rfl
      · simp only [ElStep.lost, List.getElem?_map, hi, hM]
        rfl
      · have hs : (es.set i e').flatMap elBlocks |>.Perm (elBlocks e' ++ (es.eraseIdx i).flatMap elBlocks) := by
          have hlt : i < es.length := (List.getElem?_eq_some_iff.1 hi).1
          have h1 := flatMap_at elBlocks (es.set i e') i e' (by rw [List.getElem?_set_self hlt])
          rwa [List.eraseIdx_set_eq] at h1
        refine hX.trans ?_
        refine List.Perm.trans ?_ (hs.append_right (M ++ L)).symm
        perm_parts
  | filter i keep =>
    cases hi : es[i]? with
    | none =>
      simp only [ElStep.run, hi]
      refine Runs.pure ⟨hes, ?_, [], ?_, List.Perm.refl _⟩
      · simp only [ElStep.counts, List.getElem?_map, hi]
        rfl
      · simp only [ElStep.lost, List.getElem?_map, hi]
        rfl
    | some e =>
      simp only [ElStep.run, hi]
      have he := hes e (List.mem_of_getElem? hi)
      refine (filterEdges_runs keep he (L := es.flatMap elBlocks ++ L) ?_).bind ?_
      · intro x hx
        exact List.mem_append_left _ (List.mem_flatMap.2 ⟨e, List.mem_of_getElem? hi, hx⟩)
      · rintro r X ⟨hr, hn, M, hM, hX⟩
        refine Runs.pure ⟨hcons _ hr, ?_, M, ?_, ?_⟩
        · simp only [ElStep.counts, List.getElem?_map, hi, List.map_cons, hn]
          rfl
        · simp only [ElStep.lost, List.getElem?_map, hi, hM]
          rfl
        · refine hX.trans ?_
          rw [List.flatMap_cons]
          perm_parts

theorem elSteps_runs (nrank : Nat) (ops : List ElStep) : ∀ (es : List ElMem), (∀ e ∈ es, ElGood e) → ∀ L,
    Runs (runElSteps nrank ops es) (es.flatMap elBlocks ++ L) (fun es' X => (∀ e ∈ es', ElGood e) ∧
      ∃ M : List (Nat × Alloc), M.length = lostBy nrank ops (es.map ElMem.nnz) ∧ X.Perm (es'.flatMap elBlocks ++ (M ++ L))) := by
  induction ops with
  | nil => exact fun es hes L => Runs.pure ⟨hes, [], rfl, List.Perm.refl _⟩
  | cons op ops ih =>
    intro es hes L
    refine (elStep_runs nrank op es hes L).bind ?_
    rintro es' X ⟨hg, hc, M, hM, hX⟩
    refine ((ih es' hg (M ++ L)).perm hX).mono ?_
    rintro es'' Y ⟨hg', M', hM', hY⟩
    refine ⟨hg', M' ++ M, ?_, hY.trans (by perm_parts)⟩
    rw [List.length_append, hM, hM', hc]
    exact Nat.add_comm _ _

theorem clearAll_runs : ∀ (es : List ElMem), (∀ e ∈ es, ElGood e) → ∀ L,
    Runs (clearAll es) (es.flatMap elBlocks ++ L) (fun _ X => X.Perm L) := by
  intro es
  induction es with
  | nil => exact fun _ L => Runs.pure (List.Perm.refl _)
  | cons e es ih =>
    intro hes L
    rw [List.flatMap_cons, List.append_assoc]
    refine (clear_runs (hes e List.mem_cons_self) _).bind ?_
    rintro _ _ ⟨-, rfl⟩
    exact ih (fun u hu => hes u (List.mem_cons_of_mem _ hu)) L

theorem elLives_runs (nrank : Nat) (ops : List ElStep) (L : List (Nat × Alloc)) :
    Runs (elLives nrank ops) L (fun _ X => ∃ M : List (Nat × Alloc), M.length = lostBy nrank ops [] ∧ X.Perm (M ++ L)) := by
  refine ((elSteps_runs nrank ops [] (by simp) L)).bind ?_
  rintro es X ⟨hg, M, hM, hX⟩
  refine ((clearAll_runs es hg (M ++ L)).perm hX).mono ?_
  exact fun _ Y hY => ⟨M, hM, hY⟩

/-! ### The converter -/

theorem optStep_does {α : Type} {f : α → ElMem → HeapM ElMem} {post lost : α → Nat → Nat} (hf : ∀ a, ElDoes (f a) (post a) (lost a))
    (o : Option α) : ElDoes (optStep o f) (fun n => o.elim n (fun a => post a n)) (fun n => o.elim 0 (fun a => lost a n)) := by
  cases o with
  | none => exact elDoes_pure
  | some a => exact hf a

theorem getEdgelist_runs {N : Nat} {g : GraphMem} (hg : Filled N g) (L : List (Nat × Alloc)) :
    Runs g.getEdgelist (graphBlocks g ++ L) (fun r X => (0 < r.1 → IsBlock r.2) ∧
      X.Perm ((if 0 < r.1 then own .mm r.2 else []) ++ (graphBlocks g ++ L))) := by
  obtain ⟨A, AT, vp, act, hh⟩ := hg
  obtain ⟨e, hA, -, -, -⟩ := hh
  have hrw : g.getEdgelist = matEdges dcscClass A := by rw [e]; rfl
  have hperm : (graphBlocks g ++ L).Perm (matBlocks DcscMem.blocks A ++ (matBlocks DcscMem.blocks AT ++
      (vecBlocks vp ++ (vecBlocks act ++ L)))) := by
    rw [e, graphBlocks_some]
    perm_parts
  rw [hrw]
  refine ((matEdges_runs dcsc_contract A _ hA).perm hperm).mono ?_
  rintro r X ⟨hr, hX⟩
  exact ⟨hr, hX.trans (hperm.symm.append_left _)⟩

theorem inputStep_runs (threads : Nat) (c : ConvIn) (L : List (Nat × Alloc)) :
    Runs (inputStep threads c ElMem.fresh) L (fun e X => ElGood e ∧ ∃ M : List (Nat × Alloc),
      (M.length = match c with | .files 0 => 1 | _ => 0) ∧ X.Perm (elBlocks e ++ (M ++ L))) := by
  have hf : ElGood ElMem.fresh := fun h => absurd h (by decide)
  cases c with
  | files k =>
    refine (loadEl_does k ElMem.fresh L hf).mono ?_
    rintro e X ⟨he, -, M, hM, hX⟩
    refine ⟨he, M, ?_, hX⟩
    rw [hM]
    cases k <;> rfl
  | archive cs ct mine =>
    refine (readBin_runs (N := 0) (Nat.zero_le _) cs ct mine GraphMem.fresh L).bind ?_
    rintro g X ⟨hg, -, hX⟩
    show Runs (fetchEl g ElMem.fresh >>= fun e => g.destroy >>= fun _ => pure e) _ _
    refine Runs.bind (Q := fun e X => ElGood e ∧ X.Perm (graphBlocks g ++ (elBlocks e ++ L))) ?_ ?_
    · refine ((getEdgelist_runs hg L).perm hX).bind ?_
      rintro r Y ⟨hr, hY⟩
      refine Runs.pure ?_
      split
      · rename_i hpos
        rw [if_pos hpos] at hY
        refine ⟨hr, hY.trans ?_⟩
        rw [show elBlocks ⟨r.2, r.1⟩ = own .mm r.2 from if_pos hpos]
        perm_parts
      · rename_i hz
        rw [if_neg hz] at hY
        exact ⟨hf, hY⟩
    · rintro e Y ⟨he, hY⟩
      refine ((destroy_runs hg _).perm hY).bind ?_
      intro _ Z hZ
      exact Runs.pure ⟨he, [], rfl, hZ⟩
  | other => exact Runs.pure ⟨hf, [], rfl, List.Perm.refl _⟩

theorem writeBin_runs {N : Nat} {g : GraphMem} (hg : Filled N g) (L : List (Nat × Alloc)) :
    Runs g.writeBin (graphBlocks g ++ L) (fun _ X => X.Perm (graphBlocks g ++ L)) := by
  obtain ⟨A, AT, vp, act, rfl, hA, hAT, hvp, hact⟩ := hg
  show Runs (useMat A >>= fun _ => useMat AT) _ _
  refine (useMat_runs hA ⟨matBlocks DcscMem.blocks AT ++ (vecBlocks vp ++ (vecBlocks act ++ L)), by
      rw [graphBlocks_some]; perm_parts⟩).bind ?_
  intro _ X hX
  refine (useMat_runs hAT (L := X) ⟨matBlocks DcscMem.blocks A ++ (vecBlocks vp ++ (vecBlocks act ++ L)),
      hX.trans (by rw [graphBlocks_some]; perm_parts)⟩).mono ?_
  intro _ Y hY
  exact hY.trans hX

theorem graphStep_does (threads nrank : Nat) (a : List (Option Nat) × List (Option Nat) × List Bool) :
    ElDoes (graphStep threads nrank a) (fun n => n) (fun _ => 0) := by
  intro e L he
  refine (visit_runs he (by simp +contextual)).bind ?_
  rintro _ _ rfl
  refine (readEdgelist_runs (N := 0) (Nat.zero_le _) nrank a.1 a.2.1 a.2.2 GraphMem.fresh _).bind ?_
  rintro g X ⟨hg, -, hX⟩
  refine ((writeBin_runs hg _).perm hX).bind ?_
  intro _ Y hY
  refine ((destroy_runs hg _).perm hY).bind ?_
  intro _ Z hZ
  exact Runs.pure ⟨he, rfl, [], rfl, hZ⟩

/-- a step followed by the rest of a program -/
theorem ElDoes.next {β : Type} {f : ElMem → HeapM ElMem} {p l : Nat → Nat} (hf : ElDoes f p l) {e : ElMem} (he : ElGood e)
    {L M X : List (Nat × Alloc)} (hX : X.Perm (elBlocks e ++ (M ++ L))) {g : ElMem → HeapM β} {Q : β → List (Nat × Alloc) → Prop}
    (hg : ∀ e' M' Y, ElGood e' → e'.nnz = p e.nnz → M'.length = M.length + l e.nnz → Y.Perm (elBlocks e' ++ (M' ++ L)) →
      Runs (g e') Y Q) : Runs (f e >>= g) X Q := by
  refine ((hf e (M ++ L) he).perm hX).bind ?_
  rintro e' Y ⟨he', hn, M', hM', hY⟩
  refine hg e' (M' ++ M) Y he' hn ?_ (hY.trans (by perm_parts))
  rw [List.length_append, hM']
  exact Nat.add_comm _ _

theorem flagStep_next {β : Type} {f : ElMem → HeapM Unit}
    (hf : ∀ e L, ElGood e → Runs (f e) (elBlocks e ++ L) (fun _ X => X.Perm (elBlocks e ++ L))) (b : Bool) {e : ElMem}
    (he : ElGood e) {L X : List (Nat × Alloc)} (hX : X.Perm (elBlocks e ++ L)) {g : HeapM β} {Q : β → List (Nat × Alloc) → Prop}
    (hg : ∀ Y, Y.Perm (elBlocks e ++ L) → Runs g Y Q) : Runs (flagStep b f e >>= fun _ => g) X Q := by
  cases b with
  | false => exact Runs.bind (Q := fun _ Y => Y = X) (Runs.pure rfl) (fun _ _ h => hg _ (h ▸ hX))
  | true => exact ((hf e L he).perm hX).bind (fun _ Y hY => hg Y hY)

theorem processMem_runs (threads nrank : Nat) (c : ConvMem) (L : List (Nat × Alloc)) :
    Runs (processMem threads nrank c) L (fun _ X => ∃ M : List (Nat × Alloc), M.length = c.lost ∧ X.Perm (M ++ L)) := by
  have hv : ∀ e L, ElGood e → Runs e.visit (elBlocks e ++ L) (fun _ X => X.Perm (elBlocks e ++ L)) :=
    fun _ _ he => (visit_runs he (by simp +contextual)).mono (fun _ _ h => by rw [h])
  have hboth : ElDoes (fun e => if c.both then e.bidirectional else pure e) (fun n => if c.both then n * 2 else n) (fun _ => 0) := by
    cases c.both with
    | false => exact elDoes_pure
    | true => exact bidirectional_does
  have hdups : ElDoes (optStep c.dups (fun d => ElMem.removeDuplicates nrank d.1 d.2))
      (fun n => c.dups.elim n (fun d => distinctOf d.2 (if nrank = 1 then n else d.1))) (fun _ => 0) := by
    cases c.dups with
    | none => exact elDoes_pure
    | some d => exact removeDuplicates_does nrank d.1 d.2
  have hgraph : ElDoes (optStep c.graph (graphStep threads nrank)) (fun n => n) (fun _ => 0) := by
    cases c.graph with
    | none => exact elDoes_pure
    | some a => exact graphStep_does threads nrank a
  unfold processMem
  refine (inputStep_runs threads c.input L).bind ?_
  rintro e X ⟨he, M, hM, hX⟩
  refine flagStep_next hv c.weights he hX (fun X hX => ?_)
  refine (shuffle_does c.shuffled).next he hX (fun e1 M1 X1 he1 hn1 hM1 hX1 => ?_)
  refine (optStep_does removeSelfedges_does c.loops).next he1 hX1 (fun e2 M2 X2 he2 _ hM2 hX2 => ?_)
  refine hboth.next he2 hX2 (fun e3 M3 X3 he3 _ hM3 hX3 => ?_)
  refine flagStep_next hv c.upper he3 hX3 (fun X3 hX3 => ?_)
  refine hdups.next he3 hX3 (fun e4 M4 X4 he4 _ hM4 hX4 => ?_)
  refine flagStep_next randomizeSquare_runs c.randomize he4 hX4 (fun X4 hX4 => ?_)
  refine flagStep_next hv c.write he4 hX4 (fun X4 hX4 => ?_)
  refine hgraph.next he4 hX4 (fun e5 M5 X5 he5 _ hM5 hX5 => ?_)
  refine ((clear_runs he5 (M5 ++ L)).perm hX5).bind ?_
  rintro _ _ ⟨-, rfl⟩
  refine Runs.pure ⟨M5, ?_, List.Perm.refl _⟩
  rw [hM5, hM4, hM3, hM2, hM1, hM]
  unfold ConvMem.lost
  rw [hn1]
  cases c.loops <;> rfl

end GraphMat

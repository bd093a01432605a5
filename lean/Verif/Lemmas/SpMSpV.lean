import Verif.Lemmas.RowReduce
import Verif.Lemmas.TileMul

namespace GraphMat

variable {α κ E T U V : Type}

/-! ### Partner sets -/

theorem mem_setInsert {x y : Nat} {l : List Nat} : y ∈ setInsert x l ↔ y = x ∨ y ∈ l := by
  induction l with
  | nil => simp [setInsert]
  | cons a l ih =>
    unfold setInsert
    split
    · simp
    · split
      · next h => subst h; simp
      · rw [List.mem_cons, ih, List.mem_cons]
        constructor
        · rintro (h | h | h)
          · exact .inr (.inl h)
          · exact .inl h
          · exact .inr (.inr h)
        · rintro (h | h | h)
          · exact .inr (.inl h)
          · exact .inl h
          · exact .inr (.inr h)

theorem sorted_setInsert {x : Nat} {l : List Nat} (h : l.Pairwise (· < ·)) : (setInsert x l).Pairwise (· < ·) := by
  induction l with
  | nil => simp [setInsert]
  | cons a l ih =>
    rw [List.pairwise_cons] at h
    unfold setInsert
    split
    · next hx =>
      rw [List.pairwise_cons, List.pairwise_cons]
      refine ⟨?_, h⟩
      intro b hb
      rcases List.mem_cons.mp hb with rfl | hb
      · exact hx
      · have := h.1 b hb; omega
    · split
      · exact List.pairwise_cons.mpr h
      · next h1 h2 =>
        rw [List.pairwise_cons]
        refine ⟨?_, ih h.2⟩
        intro b hb
        rcases mem_setInsert.mp hb with rfl | hb
        · omega
        · exact h.1 b hb

theorem rankSet_spec (l : List Nat) : (rankSet l).Pairwise (· < ·) ∧ ∀ y, y ∈ rankSet l ↔ y ∈ l := by
  unfold rankSet
  suffices h : ∀ (l s : List Nat), s.Pairwise (· < ·) →
      (l.foldl (fun s x => setInsert x s) s).Pairwise (· < ·) ∧
        ∀ y, y ∈ l.foldl (fun s x => setInsert x s) s ↔ y ∈ l ∨ y ∈ s by
    have := h l [] .nil
    simpa using this
  intro l
  induction l with
  | nil => intro s hs; exact ⟨hs, by simp⟩
  | cons a l ih =>
    intro s hs
    obtain ⟨h1, h2⟩ := ih (setInsert a s) (sorted_setInsert hs)
    refine ⟨h1, ?_⟩
    intro y
    rw [List.foldl_cons, h2, mem_setInsert, List.mem_cons]
    constructor
    · rintro (h | h | h)
      · exact .inl (.inr h)
      · exact .inl (.inl h)
      · exact .inr h
    · rintro ((h | h) | h)
      · exact .inr (.inl h)
      · exact .inl h
      · exact .inr (.inr h)

theorem rankPairs_spec {k : Nat} {ranks : Nat → Option (List Nat)} {S : Nat → List Nat}
    (hS : ∀ j, j < k → ranks j = some (S j)) (hs : ∀ j, (S j).Pairwise (· < ·)) :
    ∃ L, rankPairs k ranks = some L ∧ L.Nodup ∧ ∀ jr, jr ∈ L ↔ jr.1 < k ∧ jr.2 ∈ S jr.1 := by
  refine ⟨((List.range k).map (fun j => (S j).map (fun r => (j, r)))).flatten, ?_, ?_, ?_⟩
  · unfold rankPairs
    rw [mapM_some (g := fun j => (S j).map (fun r => (j, r)))]
    · rfl
    · intro j hj
      rw [hS j (List.mem_range.mp hj)]; rfl
  · rw [← List.flatMap_def]
    induction k with
    | zero => simp
    | succ k ih =>
      rw [List.range_succ, List.flatMap_append, List.nodup_append]
      refine ⟨ih (fun j hj => hS j (by omega)), ?_, ?_⟩
      · rw [List.flatMap_cons, List.flatMap_nil, List.append_nil, List.Nodup, List.pairwise_map]
        refine (hs k).imp ?_
        intro a b hab e
        rw [Prod.ext_iff] at e
        simp only at e
        omega
      · intro a ha b hb e
        subst e
        rw [List.mem_flatMap] at ha hb
        obtain ⟨j, hj, ha⟩ := ha
        obtain ⟨j', hj', hb⟩ := hb
        rw [List.mem_map] at ha hb
        obtain ⟨r, _, rfl⟩ := ha
        obtain ⟨r', _, e⟩ := hb
        rw [List.mem_range] at hj
        rw [List.mem_singleton] at hj'
        rw [Prod.ext_iff] at e
        simp only at e
        omega
  · intro jr
    rw [← List.flatMap_def, List.mem_flatMap]
    constructor
    · rintro ⟨j, hj, h⟩
      rw [List.mem_map] at h
      obtain ⟨r, hr, rfl⟩ := h
      exact ⟨List.mem_range.mp hj, hr⟩
    · rintro ⟨h1, h2⟩
      exact ⟨jr.1, List.mem_range.mpr h1, List.mem_map.mpr ⟨jr.2, h2, rfl⟩⟩

theorem colPairs_spec {m n ntx nty nrank : Nat} {ow : Nat → Nat → Nat} {T : Nat → Nat → Tile E} (r0 : Nat)
    (how : ∀ i j, ow i j < nrank) :
    ∃ L, rankPairs ntx (matOf m n ntx nty nrank ow T r0).colRanks = some L ∧ L.Nodup ∧
      (∀ jr, jr ∈ L ↔ jr.1 < ntx ∧ ∃ i, i < nty ∧ ow i jr.1 = jr.2) ∧ ∀ jr ∈ L, jr.1 < ntx ∧ jr.2 < nrank := by
  obtain ⟨L, h1, h2, h3⟩ := rankPairs_spec (k := ntx) (ranks := (matOf m n ntx nty nrank ow T r0).colRanks)
    (S := fun j => rankSet ((List.range nty).map (fun i => ow i j))) (by
      intro j _
      unfold RMat.colRanks
      have e : (List.range nty).mapM (fun i => (matOf m n ntx nty nrank ow T r0).node i j) =
          some ((List.range nty).map (fun i => ow i j)) := mapM_some (fun _ _ => rfl)
      show Option.bind ((List.range nty).mapM (fun i => (matOf m n ntx nty nrank ow T r0).node i j)) _ = _
      rw [e]
      rfl) (fun j => (rankSet_spec _).1)
  have h4 : ∀ jr, jr ∈ L ↔ jr.1 < ntx ∧ ∃ i, i < nty ∧ ow i jr.1 = jr.2 := by
    intro jr
    rw [h3, (rankSet_spec _).2, List.mem_map]
    simp only [List.mem_range]
  refine ⟨L, h1, h2, h4, ?_⟩
  intro jr hjr
  obtain ⟨a, i, _, e⟩ := (h4 jr).mp hjr
  exact ⟨a, by rw [← e]; exact how _ _⟩

theorem rowPairs_spec {m n ntx nty nrank : Nat} {ow : Nat → Nat → Nat} {T : Nat → Nat → Tile E} (r0 : Nat)
    (how : ∀ i j, ow i j < nrank) :
    ∃ L, rankPairs nty (matOf m n ntx nty nrank ow T r0).rowRanks = some L ∧ L.Nodup ∧
      (∀ ir, ir ∈ L ↔ ir.1 < nty ∧ ∃ j, j < ntx ∧ ow ir.1 j = ir.2) ∧ ∀ ir ∈ L, ir.1 < nty ∧ ir.2 < nrank := by
  obtain ⟨L, h1, h2, h3⟩ := rankPairs_spec (k := nty) (ranks := (matOf m n ntx nty nrank ow T r0).rowRanks)
    (S := fun i => rankSet ((List.range ntx).map (fun j => ow i j))) (by
      intro i _
      unfold RMat.rowRanks
      have e : (List.range ntx).mapM (fun j => (matOf m n ntx nty nrank ow T r0).node i j) =
          some ((List.range ntx).map (fun j => ow i j)) := mapM_some (fun _ _ => rfl)
      show Option.bind ((List.range ntx).mapM (fun j => (matOf m n ntx nty nrank ow T r0).node i j)) _ = _
      rw [e]
      rfl) (fun j => (rankSet_spec _).1)
  have h4 : ∀ ir, ir ∈ L ↔ ir.1 < nty ∧ ∃ j, j < ntx ∧ ow ir.1 j = ir.2 := by
    intro ir
    rw [h3, (rankSet_spec _).2, List.mem_map]
    simp only [List.mem_range]
  refine ⟨L, h1, h2, h4, ?_⟩
  intro ir hir
  obtain ⟨a, i, _, e⟩ := (h4 ir).mp hir
  exact ⟨a, by rw [← e]; exact how _ _⟩

/-! ### Multiplication on one rank -/

/-- One tile adds the values `K` to a segment of `y`. -/
def Adds (add : U → U → U) (K : Nat → List U) (s s' : Segment U) : Prop :=
  s'.WF ∧ s'.Ready ∧ s'.capacity = s.capacity ∧ s'.received = s.received ∧
    ∀ i, s'.view i = accum add (s.view i) (K i)

theorem adds_many {add : U → U → U} {op : κ → Segment U → Option (Segment U)} {K : κ → Nat → List U} (l : List κ)
    {s : Segment U} (hs : l ≠ [] → s.WF)
    (hop : ∀ k ∈ l, ∀ s1 : Segment U, s1.WF → s1.capacity = s.capacity → ∃ s', op k s1 = some s' ∧ Adds add (K k) s1 s') :
    ∃ s', l.foldlM (fun s k => op k s) s = some s' ∧ (s.WF → s'.WF) ∧ (s.Ready → s'.Ready) ∧ (l ≠ [] → s'.Ready) ∧
      s'.capacity = s.capacity ∧ s'.received = s.received ∧
      ∀ i, s'.view i = accum add (s.view i) (l.flatMap (fun k => K k i)) := by
  induction l generalizing s with
  | nil => exact ⟨s, rfl, fun h => h, fun h => h, fun h => absurd rfl h, rfl, rfl, fun i => rfl⟩
  | cons k l ih =>
    obtain ⟨s1, h1, h2, h3, h4, h5, h6⟩ := hop k List.mem_cons_self s (hs (by simp)) rfl
    obtain ⟨s', e1, e2, e3, e4, e5, e6, e7⟩ := ih (s := s1) (fun _ => h2) (by
      intro k hk s2 w2 c2
      exact hop k (List.mem_cons_of_mem _ hk) s2 w2 (by rw [c2, h4]))
    refine ⟨s', ?_, fun _ => e2 h2, fun _ => e3 h3, fun _ => e3 h3, by rw [e5, h4], by rw [e6, h5], ?_⟩
    · rw [List.foldlM_cons, h1]; exact e1
    · intro i
      rw [e7, h6, List.flatMap_cons, accum_append]

/-- The multiplications of all ranks. -/
theorem multiply_spec {m nty ntx nrank : Nat} {ow : Nat → Nat → Nat} {y : DVec U} (h : y.WF m nty nrank)
    {B : Nat → SpVec U → Option (SpVec U)} {op : Nat → Nat × Nat → Segment U → Option (Segment U)}
    (hB : ∀ r, r < nrank → ∀ v : SpVec U, B r v =
      ((cells nty ntx).filter (fun x => decide (ow x.1 x.2 = r))).foldlM (fun v x => v.modifySeg x.1 (op r x)) v)
    {add : U → U → U} {K : Nat × Nat → Nat → List U}
    (hop : ∀ r, r < nrank → ∀ x, x.1 < nty → x.2 < ntx → ow x.1 x.2 = r → ∀ s : Segment U, s.WF →
      s.capacity = bnd m nty (x.1 + 1) - bnd m nty x.1 → ∃ s', op r x s = some s' ∧ Adds add (K x) s s') :
    ∃ y' : DVec U, eachRank y B = some y' ∧ y'.WF m nty nrank ∧
      ∀ r p, r < nrank → p < nty → (y'.cell (r, p)).received = (y.cell (r, p)).received ∧
        ∀ i, (y'.cell (r, p)).view i = accum add ((y.cell (r, p)).view i)
          ((((cells nty ntx).filter (fun x => decide (ow x.1 x.2 = r))).filter (fun x => decide (x.1 = p))).flatMap
            (fun x => K x i)) := by
  obtain ⟨y', a1, a2, a3⟩ := eachRank_spec (d := y) (f := B)
    (P := fun r v' => v'.Shape m nty nrank r ∧ ∀ p, p < nty → (v'.segs.get p).WF ∧
      (v'.segs.get p).capacity = (y.cell (r, p)).capacity ∧
      (v'.segs.get p).received = (y.cell (r, p)).received ∧
        ∀ i, (v'.segs.get p).view i = accum add ((y.cell (r, p)).view i)
          ((((cells nty ntx).filter (fun x => decide (ow x.1 x.2 = r))).filter (fun x => decide (x.1 = p))).flatMap
            (fun x => K x i))) (by
      intro r hr
      rw [h.size] at hr
      have hcell : ∀ k ∈ (cells nty ntx).filter (fun x => decide (ow x.1 x.2 = r)),
          k.1 < nty ∧ k.2 < ntx ∧ ow k.1 k.2 = r := by
        intro k hk
        rw [List.mem_filter, mem_cells] at hk
        exact ⟨hk.1.1, hk.1.2, by simpa using hk.2⟩
      have hex : ∀ p, ∃ s', (((cells nty ntx).filter (fun x => decide (ow x.1 x.2 = r))).filter
          (fun x => decide (x.1 = p))).foldlM (fun s k => op r k s) ((y.get r).segs.get p) = some s' ∧
          (p < nty → s'.WF ∧ s'.capacity = (y.cell (r, p)).capacity ∧ s'.received = (y.cell (r, p)).received ∧
            ∀ i, s'.view i = accum add ((y.cell (r, p)).view i)
          ((((cells nty ntx).filter (fun x => decide (ow x.1 x.2 = r))).filter (fun x => decide (x.1 = p))).flatMap
            (fun x => K x i))) := by
        intro p
        have hmem : ∀ k ∈ ((cells nty ntx).filter (fun x => decide (ow x.1 x.2 = r))).filter
          (fun x => decide (x.1 = p)), (k.1 < nty ∧ k.2 < ntx ∧ ow k.1 k.2 = r) ∧ k.1 = p := by
          intro k hk
          rw [List.mem_filter] at hk
          exact ⟨hcell k hk.1, by simpa using hk.2⟩
        obtain ⟨s', e1, e2, e3, e4, e5, e6, e7⟩ := adds_many (add := add) (op := op r) (K := K)
          (((cells nty ntx).filter (fun x => decide (ow x.1 x.2 = r))).filter (fun x => decide (x.1 = p)))
          (s := (y.get r).segs.get p) (by
            intro hne
            obtain ⟨k, hk⟩ := List.exists_mem_of_ne_nil _ hne
            obtain ⟨⟨k1, _⟩, k2⟩ := hmem k hk
            exact (h.rank r hr).seg p (by omega)) (by
            intro k hk s1 w1 c1
            obtain ⟨⟨k1, k2, k3⟩, k4⟩ := hmem k hk
            refine hop r hr k k1 k2 k3 s1 w1 ?_
            rw [c1, (h.rank r hr).cap p (by omega), k4])
        exact ⟨s', e1, fun hp => ⟨e2 ((h.rank r hr).seg p hp), e5, e6, e7⟩⟩
      obtain ⟨C, hC⟩ := Classical.skolem.mp hex
      obtain ⟨v', b1, b2, b3⟩ := SpVec.phase (n := m) (nseg := nty) (nrank := nrank) (me := r)
        (t := fun x : Nat × Nat => x.1) (F := fun v x => v.modifySeg x.1 (op r x)) (g := op r) (v0 := y.get r)
        ((cells nty ntx).filter (fun x => decide (ow x.1 x.2 = r))) (fun k hk => (hcell k hk).1) (fun _ _ _ _ => rfl)
        (h.rank r hr).shape (C := C) (fun p => (hC p).1)
      refine ⟨v', by rw [hB r hr]; exact b1, b2, ?_⟩
      intro p hp
      rw [b3]
      exact (hC p).2 hp)
  rw [h.size] at a2 a3
  refine ⟨y', a1, ⟨a2, fun r hr => ?_⟩, fun r p hr hp => ((a3 r hr).2.2 p hp).2.2⟩
  have e := (a3 r hr).2.1
  exact ⟨e.hn, e.hseg, e.hrank, e.hme, e.size, fun p hp => ((a3 r hr).2.2 p hp).1,
    fun p hp => by rw [((a3 r hr).2.2 p hp).2.1]; exact (h.rank r hr).cap p hp⟩

/-! ### Global view -/

/-- The values the edges of a list bring to row `w`, given the messages `xs` of the columns. -/
def incoming (xs : Nat → Option T) (pm : Nat → E → T → U) (es : List (Edge E)) (w : Nat) : List U :=
  es.filterMap (fun e : Edge E => if e.src = (w : Int) then (xs e.dst.toNat).map (pm w e.val) else none)

theorem incoming_flatMap {xs : Nat → Option T} {pm : Nat → E → T → U} (l : List κ) (f : κ → List (Edge E)) (w : Nat) :
    incoming xs pm (l.flatMap f) w = l.flatMap (fun k => incoming xs pm (f k) w) := by
  unfold incoming
  induction l with
  | nil => rfl
  | cons a l ih => rw [List.flatMap_cons, List.filterMap_append, ih, List.flatMap_cons]

theorem filterMap_none {β γ : Type} {l : List β} {f : β → Option γ} (h : ∀ x ∈ l, f x = none) : l.filterMap f = [] := by
  induction l with
  | nil => rfl
  | cons a l ih =>
    rw [List.filterMap_cons_none (h a List.mem_cons_self), ih (fun x hx => h x (List.mem_cons_of_mem _ hx))]

/-- What one tile brings to a row. -/
theorem incoming_tile {m n ntx nty nrank i j p w : Nat} {t : Tile E} {P : Nat → List (Col E)} (h : t.Rep P)
    (htm : t.m = bnd m nty (i + 1) - bnd m nty i) (htn : t.n = bnd n ntx (j + 1) - bnd n ntx j)
    (hj : j < ntx) (hw1 : bnd m nty p < w) (hw2 : w ≤ bnd m nty (p + 1)) (x : DVec T) (pm : Nat → E → T → U) :
    incoming (x.sem n ntx nrank) pm (tileEdges (bnd m nty i) (bnd n ntx j) t P) w =
      if i = p then contrib (x.own nrank j).view (fun row => pm (bnd m nty i + row + 1)) (allEnts t.np P)
        (w - bnd m nty p - 1) else [] := by
  unfold incoming tileEdges contrib
  rw [List.filterMap_map]
  by_cases hi : i = p
  · subst hi
    rw [if_pos rfl]
    apply List.filterMap_congr
    intro e he
    obtain ⟨r1, r2⟩ := mem_allEnts_row h he
    simp only [Function.comp]
    by_cases hr : e.1 = w - bnd m nty i - 1
    · rw [if_pos hr, if_pos (by omega)]
      have hd : ((bnd n ntx j : Int) + e.2.1 + 1).toNat = bnd n ntx j + e.2.1 + 1 := by omega
      rw [hd, DVec.sem_of (p := j) (getPartition_iff.mpr ⟨hj, by omega, by omega⟩)]
      rw [show bnd n ntx j + e.2.1 + 1 - bnd n ntx j - 1 = e.2.1 by omega,
        show bnd m nty i + (w - bnd m nty i - 1) + 1 = w by omega]
    · rw [if_neg hr, if_neg (by omega)]
  · rw [if_neg hi]
    apply filterMap_none
    intro e he
    obtain ⟨r1, r2⟩ := mem_allEnts_row h he
    simp only [Function.comp]
    rw [if_neg]
    intro hs
    apply hi
    refine seg_unique (f := bnd m nty) (v := (w : Int)) (fun i j h => bnd_mono' h) ?_ ?_ ?_ ?_
    · omega
    · have := bnd_mono (n := m) (nseg := nty) (i := i); omega
    · omega
    · omega

/-- What the tiles of one rank bring to a row. -/
theorem incoming_rank {D : DMat E} {m n ntx nty nrank : Nat} {ow : Nat → Nat → Nat} {T' : Nat → Nat → Tile E}
    {P : Nat → Nat → Nat → List (Col E)} {all : List (Edge E)} (h : D.Rep m n ntx nty nrank ow T' P all)
    {p w : Nat} (hw1 : bnd m nty p < w) (hw2 : w ≤ bnd m nty (p + 1)) (x : DVec T) (pm : Nat → E → T → U) (r : Nat) :
    incoming (x.sem n ntx nrank) pm (rankEdges m n ntx nty ow T' P r) w =
      (((cells nty ntx).filter (fun x => decide (ow x.1 x.2 = r))).filter (fun x => decide (x.1 = p))).flatMap
        (fun c => contrib (x.own nrank c.2).view (fun row => pm (bnd m nty c.1 + row + 1))
          (allEnts (T' c.1 c.2).np (P c.1 c.2)) (w - bnd m nty p - 1)) := by
  unfold rankEdges
  rw [incoming_flatMap]
  have hall : ∀ c ∈ (cells nty ntx).filter (fun x => decide (ow x.1 x.2 = r)), c.1 < nty ∧ c.2 < ntx := by
    intro c hc
    rw [List.mem_filter, mem_cells] at hc
    exact hc.1
  generalize (cells nty ntx).filter (fun x => decide (ow x.1 x.2 = r)) = l at hall
  induction l with
  | nil => rfl
  | cons c l ih =>
    have hc := hall c List.mem_cons_self
    have ht := h.tile c.1 c.2 hc.1 hc.2
    rw [List.flatMap_cons, ih (fun c hc => hall c (List.mem_cons_of_mem _ hc)),
      incoming_tile (nrank := nrank) ht.1 ht.2.1 ht.2.2.1 hc.2 hw1 hw2 x pm]
    by_cases e : c.1 = p
    · rw [if_pos e, List.filter_cons_of_pos (by simpa using e), List.flatMap_cons]
    · rw [if_neg e, List.filter_cons_of_neg (by simpa using e)]; rfl

theorem flatMap_support {β : Type} [DecidableEq κ] {l l' : List κ} (h : l.Nodup) (h' : l'.Nodup) (hsub : ∀ a ∈ l', a ∈ l)
    {f : κ → List β} (hf : ∀ a ∈ l, a ∉ l' → f a = []) : (l.flatMap f).Perm (l'.flatMap f) := by
  have h1 : l.flatMap f = (l.filter (fun a => decide (a ∈ l'))).flatMap f := by
    clear h hsub
    induction l with
    | nil => rfl
    | cons a l ih =>
      rw [List.flatMap_cons, ih (fun b hb => hf b (List.mem_cons_of_mem _ hb))]
      by_cases e : a ∈ l'
      · rw [List.filter_cons_of_pos (by simpa using e), List.flatMap_cons]
      · rw [List.filter_cons_of_neg (by simpa using e), hf a List.mem_cons_self e]; rfl
  rw [h1]
  apply List.Perm.flatMap_right
  rw [List.perm_ext_iff_of_nodup (h.sublist List.filter_sublist) h']
  intro a
  rw [List.mem_filter]
  constructor
  · rintro ⟨_, h⟩; simpa using h
  · intro h; exact ⟨hsub a h, by simpa using h⟩

theorem Reduces.foldl_combine {add : U → U → U} (l : List κ) {f : κ → List U} {l0 : List U} {a : Option U}
    (h : Reduces add l0 a) :
    Reduces add (l0 ++ l.flatMap f) (l.foldl (fun acc k => combine add acc (GraphMat.accum add none (f k))) a) := by
  induction l generalizing l0 a with
  | nil => simpa using h
  | cons k l ih =>
    have h1 := (Reduces.nil add).accum (f k)
    rw [List.nil_append] at h1
    have := ih (h.join h1)
    rw [List.append_assoc] at this
    rw [List.flatMap_cons]
    exact this

/-- A vector whose copies hold nothing besides the owned segments. -/
def DVec.Quiet (nseg nrank : Nat) (d : DVec α) : Prop :=
  (∀ p, p < nseg → (d.own nrank p).received = []) ∧
  (∀ r p, r < nrank → p < nseg → p % nrank ≠ r → ∀ i, (d.cell (r, p)).view i = none)

/-- Every segment has a buffer in use, or will get one because another rank needs the segment. -/
def DVec.Usable (nseg nrank : Nat) (pairs : List (Nat × Nat)) (d : DVec α) : Prop :=
  ∀ p, p < nseg → (d.own nrank p).Ready ∨ ∃ k ∈ foreign nrank pairs, k.1 = p

theorem DVec.Ready.usable {nseg nrank : Nat} {d : DVec α} (h : d.Ready nseg nrank) (pairs : List (Nat × Nat)) :
    d.Usable nseg nrank pairs := fun p hp => .inl (h p hp)

/-- The effect of the exchange of `x` on the segments used by a rank. -/
theorem broadcast_use {nseg nrank : Nat} {d d' : DVec α} {pairs : List (Nat × Nat)} (hrdy : d.Usable nseg nrank pairs)
    {r p : Nat} (hp : p < nseg) (h : BCell nrank pairs d (r, p) (d'.cell (r, p))) (hm : (p, r) ∈ pairs) :
    (d'.cell (r, p)).Ready ∧ (d'.cell (r, p)).view = (d.own nrank p).view := by
  by_cases ho : p % nrank = r
  · have := h.own ho
    have e : d.own nrank p = d.cell (r, p) := by unfold DVec.own DVec.cell; rw [ho]
    refine ⟨?_, by rw [this.1, e]⟩
    rcases hrdy p hp with h1 | h1
    · exact this.2 (by rw [← e]; exact h1)
    · exact h.shared ho h1
  · exact h.other (mem_foreign.mpr ⟨hm, ho⟩)

/-- A vector after exchange and release of the copies. -/
theorem broadcast_free {n nseg nrank : Nat} {d d1 : DVec α} (hr : 0 < nrank) {pairs : List (Nat × Nat)}
    (hrdy : d.Usable nseg nrank pairs) (h1 : d1.WF n nseg nrank)
    (hb : ∀ r p, r < nrank → p < nseg → BCell nrank pairs d (r, p) (d1.cell (r, p))) :
    ∃ d2 : DVec α, d1.freeNonOwned nseg = some d2 ∧ d2.WF n nseg nrank ∧ d2.Ready nseg nrank ∧
      ∀ w, d2.sem n nseg nrank w = d.sem n nseg nrank w := by
  obtain ⟨d2, e1, e2, e3⟩ := DVec.freeNonOwned_spec h1 hr
  have hown : ∀ p, p < nseg → d2.own nrank p = d1.own nrank p := by
    intro p hp
    have := e3 (p % nrank) p (Nat.mod_lt _ hr) hp
    rw [if_pos rfl] at this
    exact this
  refine ⟨d2, e1, e2, ?_, ?_⟩
  · intro p hp
    rw [hown p hp]
    have hc := hb (p % nrank) p (Nat.mod_lt _ hr) hp
    rcases hrdy p hp with h | h
    · exact (hc.own rfl).2 h
    · exact hc.shared rfl h
  · intro w
    unfold DVec.sem
    cases hg : getPartition n nseg w with
    | none => rfl
    | some p =>
      have hp := (getPartition_some hg).1
      simp only
      rw [hown p hp]
      have := ((hb (p % nrank) p (Nat.mod_lt _ hr) hp).own rfl).1
      exact congrFun this _

/-- The order in which the partial results of the ranks are combined for row `w`: the owner of the row's
segment accumulates its own messages first, then adds the partial results of the other ranks. -/
def rowFold (add : U → U → U) (m nty nrank : Nat) (pairs : List (Nat × Nat)) (a : Option U) (f : Nat → List U) (w : Nat) :
    Option U :=
  match getPartition m nty w with
  | none => none
  | some p => (partners nrank pairs p).foldl (fun acc r => combine add acc (accum add none (f r)))
      (accum add a (f (p % nrank)))

/-- The (row, rank) pairs for which partial results are exchanged. -/
def rowPairsOf (m n ntx nty nrank : Nat) (ow : Nat → Nat → Nat) (T : Nat → Nat → Tile E) : List (Nat × Nat) :=
  (rankPairs nty (matOf m n ntx nty nrank ow T 0).rowRanks).getD []

theorem rowFold_one {add : U → U → U} {m nty : Nat} (hy0 : 0 < nty) {pairs : List (Nat × Nat)} (hv : ∀ ir ∈ pairs, ir.2 < 1)
    (a : Option U) (f : Nat → List U) {w : Nat} (h1 : 1 ≤ w) (h2 : w ≤ m) :
    rowFold add m nty 1 pairs a f w = accum add a (f 0) := by
  obtain ⟨p, hp, _⟩ := locate hy0 h1 h2
  unfold rowFold
  rw [hp]
  have : partners 1 pairs p = [] := by
    rw [List.eq_nil_iff_forall_not_mem]
    intro r hrm
    rw [mem_partners] at hrm
    have h2 := hv _ hrm.1
    have h3 := hrm.2
    simp only at h2
    have := Nat.mod_lt p (show 0 < 1 by omega)
    omega
  simp only
  rw [this, Nat.mod_one]; rfl

/-- From the multiplied partial results to the final `y`. -/
theorem reduce_final {D : DMat E} {m n ntx nty nrank : Nat} {ow : Nat → Nat → Nat} {T' : Nat → Nat → Tile E}
    {P : Nat → Nat → Nat → List (Col E)} {all : List (Edge E)} (h : D.Rep m n ntx nty nrank ow T' P all)
    (hy0 : 0 < nty) (hx0 : 0 < ntx) (hr : 0 < nrank) (how : ∀ i j, ow i j < nrank) {threads : Nat} (hth : 0 < threads)
    (ser : Bool) (add : U → U → U) (g gq : Nat → Nat → Fresh U) {pairs : List (Nat × Nat)} (hnd : pairs.Nodup)
    (hpairs : ∀ ir, ir ∈ pairs ↔ ir.1 < nty ∧ ∃ j, j < ntx ∧ ow ir.1 j = ir.2)
    {x : DVec T} {y y1 : DVec U} (hy1 : y1.WF m nty nrank) (hq : y.Quiet nty nrank) (pm : Nat → E → T → U)
    (hmul : ∀ r p, r < nrank → p < nty → (y1.cell (r, p)).received = (y.cell (r, p)).received ∧
        ∀ i, (y1.cell (r, p)).view i = accum add ((y.cell (r, p)).view i)
          ((((cells nty ntx).filter (fun x => decide (ow x.1 x.2 = r))).filter (fun x => decide (x.1 = p))).flatMap
            (fun c => contrib (x.own nrank c.2).view (fun row => pm (bnd m nty c.1 + row + 1))
              (allEnts (T' c.1 c.2).np (P c.1 c.2)) i))) :
    ∃ y' : DVec U, y1.reduceRows ser threads nrank nty add g gq pairs = some y' ∧ y'.WF m nty nrank ∧
      y'.Ready nty nrank ∧ y'.Quiet nty nrank ∧
      (∀ w, 1 ≤ w → w ≤ m → ∀ l0, Reduces add l0 (y.sem m nty nrank w) →
        Reduces add (l0 ++ incoming (x.sem n ntx nrank) pm all w) (y'.sem m nty nrank w)) ∧
      (∀ w, 1 ≤ w → w ≤ m → y'.sem m nty nrank w = rowFold add m nty nrank pairs (y.sem m nty nrank w)
        (fun r => incoming (x.sem n ntx nrank) pm (rankEdges m n ntx nty ow T' P r) w) w) := by
  have hv : ∀ ir ∈ pairs, ir.1 < nty ∧ ir.2 < nrank := by
    intro ir hir
    obtain ⟨a, j, _, e⟩ := (hpairs ir).mp hir
    exact ⟨a, by rw [← e]; exact how _ _⟩
  obtain ⟨y', a1, a2, a3, a4⟩ := DVec.reduceRows_spec hy1 hr ser hth add g gq hnd hv (by
    intro p hp
    have := (hmul (p % nrank) p (Nat.mod_lt _ hr) hp).1
    show (y1.cell (p % nrank, p)).received = []
    rw [this]; exact hq.1 p hp)
  have hrow : ∀ w, 1 ≤ w → w ≤ m → ∃ p, p < nty ∧ bnd m nty p < w ∧ w ≤ bnd m nty (p + 1) ∧
      y'.sem m nty nrank w = (partners nrank pairs p).foldl (fun acc r => combine add acc
        (accum add none (incoming (x.sem n ntx nrank) pm (rankEdges m n ntx nty ow T' P r) w)))
        (accum add (y.sem m nty nrank w)
          (incoming (x.sem n ntx nrank) pm (rankEdges m n ntx nty ow T' P (p % nrank)) w)) := by
    intro w h1 h2
    obtain ⟨p, hp, hps, hp1, hp2⟩ := locate hy0 h1 h2
    refine ⟨p, hps, hp1, hp2, ?_⟩
    rw [DVec.sem_of hp, DVec.sem_of hp, (a3 p hps).2.2 _ (by omega)]
    have e1 : (y1.own nrank p).view (w - bnd m nty p - 1) = accum add ((y.own nrank p).view (w - bnd m nty p - 1))
        (incoming (x.sem n ntx nrank) pm (rankEdges m n ntx nty ow T' P (p % nrank)) w) := by
      rw [incoming_rank h hp1 hp2]
      exact (hmul (p % nrank) p (Nat.mod_lt _ hr) hps).2 _
    rw [e1]
    have e2 : ∀ (l : List Nat) (a : Option U), (∀ r ∈ l, r < nrank ∧ p % nrank ≠ r) →
        l.foldl (fun acc r => combine add acc ((y1.cell (r, p)).view (w - bnd m nty p - 1))) a =
        l.foldl (fun acc r => combine add acc
          (accum add none (incoming (x.sem n ntx nrank) pm (rankEdges m n ntx nty ow T' P r) w))) a := by
      intro l
      induction l with
      | nil => intro a _; rfl
      | cons r l ih =>
        intro a hl
        have hrr := hl r List.mem_cons_self
        rw [List.foldl_cons, List.foldl_cons, ih _ (fun r hr => hl r (List.mem_cons_of_mem _ hr)),
          (hmul r p hrr.1 hps).2, hq.2 r p hrr.1 hps hrr.2, incoming_rank h hp1 hp2]
    exact e2 _ _ (by
      intro r hrm
      rw [mem_partners] at hrm
      exact ⟨(hv _ hrm.1).2, hrm.2⟩)
  refine ⟨y', a1, a2, fun p hp => (a3 p hp).1, ⟨fun p hp => (a3 p hp).2.1, a4⟩, ?_, ?_⟩
  · intro w h1 h2 l0 hl0
    obtain ⟨p, hps, hp1, hp2, e⟩ := hrow w h1 h2
    rw [e]
    refine ((hl0.accum _).foldl_combine (partners nrank pairs p)).perm ?_
    rw [List.append_assoc]
    apply List.Perm.append_left
    have hsplit : (incoming (x.sem n ntx nrank) pm all w).Perm
        ((List.range nrank).flatMap (fun r => incoming (x.sem n ntx nrank) pm (rankEdges m n ntx nty ow T' P r) w)) := by
      rw [← incoming_flatMap]
      have := (h.allEdges hy0 hx0 how).2
      rw [← List.flatMap_def] at this
      exact this.symm.filterMap _
    refine List.Perm.trans ?_ hsplit.symm
    rw [← List.flatMap_cons (f := fun r => incoming (x.sem n ntx nrank) pm (rankEdges m n ntx nty ow T' P r) w)]
    refine List.Perm.symm (flatMap_support List.nodup_range ?_ ?_ ?_)
    · rw [List.nodup_cons]
      refine ⟨?_, nodup_partners hnd p⟩
      rw [mem_partners]
      exact fun hh => hh.2 rfl
    · intro r hrm
      rw [List.mem_range]
      rcases List.mem_cons.mp hrm with rfl | hrm
      · exact Nat.mod_lt _ hr
      · exact (hv _ (mem_partners.mp hrm).1).2
    · intro r hrr hnm
      rw [incoming_rank h hp1 hp2]
      rw [List.filter_eq_nil_iff.mpr]
      · rfl
      · intro c hc hcp
        rw [List.mem_filter, mem_cells] at hc
        have hcr : ow c.1 c.2 = r := by simpa using hc.2
        have hcp : c.1 = p := by simpa using hcp
        apply hnm
        rw [List.mem_cons, mem_partners]
        by_cases ho : r = p % nrank
        · exact .inl ho
        · refine .inr ⟨(hpairs _).mpr ⟨hps, c.2, hc.1.2, by rw [← hcp]; exact hcr⟩, fun h => ho h.symm⟩
  · intro w h1 h2
    obtain ⟨p, hps, hp1, hp2, e⟩ := hrow w h1 h2
    rw [e]
    unfold rowFold
    rw [getPartition_iff.mpr ⟨hps, by omega, by omega⟩]

theorem DMat.Rep.head {D : DMat E} {m n ntx nty nrank : Nat} {ow : Nat → Nat → Nat} {T' : Nat → Nat → Tile E}
    {P : Nat → Nat → Nat → List (Col E)} {all : List (Edge E)} (h : D.Rep m n ntx nty nrank ow T' P all) {r : Nat}
    (hr : r < nrank) : D[r]? = some (matOf m n ntx nty nrank ow T' r) := by
  rw [h.mat, List.getElem?_map, List.getElem?_range hr]; rfl

theorem DMat.spmspv_shared {D : DMat E} {m n ntx nty nrank : Nat} {ow : Nat → Nat → Nat} {T' : Nat → Nat → Tile E}
    {P : Nat → Nat → Nat → List (Col E)} {all : List (Edge E)} (h : D.Rep m n ntx nty nrank ow T' P all)
    (hy0 : 0 < nty) (hx0 : 0 < ntx) (hr : 0 < nrank) (how : ∀ i j, ow i j < nrank) {threads : Nat} (hth : 0 < threads)
    (env : MulEnv T U V) {mul : Nat → Nat → Nat → Nat → E → T → U → U} {pm : E → T → U}
    (hm : ∀ i j p nz e x old, mul i j p nz e x old = pm e x) (add : U → U → U)
    {x : DVec T} {y : DVec U} (hx : x.WF n ntx nrank) (rx0 : ∀ p, p < ntx → (x.own nrank p).Ready ∨ ∃ i, i < nty ∧ ow i p ≠ p % nrank) (hy : y.WF m nty nrank)
    (hq : y.Quiet nty nrank) :
    ∃ (x' : DVec T) (y' : DVec U), D.spmspv env threads nrank mul add x y = some (x', y') ∧
      x'.WF n ntx nrank ∧ x'.Ready ntx nrank ∧ (∀ w, x'.sem n ntx nrank w = x.sem n ntx nrank w) ∧
      y'.WF m nty nrank ∧ y'.Ready nty nrank ∧ y'.Quiet nty nrank ∧
      (∀ w, 1 ≤ w → w ≤ m → ∀ l0, Reduces add l0 (y.sem m nty nrank w) →
        Reduces add (l0 ++ incoming (x.sem n ntx nrank) (fun _ => pm) all w) (y'.sem m nty nrank w)) ∧
      (∀ w, 1 ≤ w → w ≤ m → y'.sem m nty nrank w =
        rowFold add m nty nrank (rowPairsOf m n ntx nty nrank ow T') (y.sem m nty nrank w)
          (fun r => incoming (x.sem n ntx nrank) (fun _ => pm) (rankEdges m n ntx nty ow T' P r) w) w) := by
  obtain ⟨cp, c1, c2, c3, c4⟩ := colPairs_spec (m := m) (n := n) (T := T') (ntx := ntx) (nty := nty) 0 how
  obtain ⟨rp, r1, r2, r3, r4⟩ := rowPairs_spec (m := m) (n := n) (T := T') (ntx := ntx) (nty := nty) 0 how
  have rx : x.Usable ntx nrank cp := by
    intro p hp
    rcases rx0 p hp with h | ⟨i, hi, hne⟩
    · exact .inl h
    · exact .inr ⟨(p, ow i p), mem_foreign.mpr ⟨(c3 _).mpr ⟨hp, i, hi, rfl⟩, fun e => hne e.symm⟩, rfl⟩
  obtain ⟨x1, b1, b2, b3⟩ := DVec.broadcast_spec hx hr env.serT hth env.gx c2 c4
  obtain ⟨x2, f1, f2, f3, f4⟩ := broadcast_free hr rx b2 b3
  obtain ⟨y1, m1, m2, m3⟩ := multiply_spec (ntx := ntx) (ow := ow) hy
    (B := fun r yv => (x1.read r).bind fun xv => (D[r]?).bind fun M => M.foldTiles yv (fun i j t yv =>
      (xv.segs.read j).bind fun sx =>
      yv.modifySeg i (fun sy => multSegment (env.gy r i) (env.tmp i j) (mul i j) add t sx sy)))
    (op := fun r c s => multSegment (env.gy r c.1) (env.tmp c.1 c.2) (mul c.1 c.2) add (T' c.1 c.2)
      (x1.cell (r, c.2)) s) (by
      intro r hrr v
      rw [Arr.read_some (by rw [b2.size]; exact hrr), Option.bind_some, h.head hrr, Option.bind_some, foldTiles_spec]
      refine foldlM_ext ?_ v
      intro c hc v
      rw [List.mem_filter, mem_cells] at hc
      rw [Arr.read_some (by rw [(b2.rank r hrr).size]; exact hc.1.2)]
      rfl) (add := add)
    (K := fun c => contrib (x.own nrank c.2).view (fun _ => pm) (allEnts (T' c.1 c.2).np (P c.1 c.2))) (by
      intro r hrr c hc1 hc2 hco s hs hcap
      have ht := h.tile c.1 c.2 hc1 hc2
      have hmem : (c.2, r) ∈ cp := (c3 _).mpr ⟨hc2, c.1, hc1, hco⟩
      obtain ⟨u1, u2⟩ := broadcast_use rx hc2 (b3 r c.2 hrr hc2) hmem
      obtain ⟨s', q1, q2, q3, q4, q5, q6, q7⟩ := multSegment_spec ht.1 ((b2.rank r hrr).seg c.2 hc2) u1 hs
        (by rw [ht.2.2.1]; exact (b2.rank r hrr).cap c.2 hc2) (by rw [hcap, ht.2.1])
        (env.gy r c.1) (env.tmp c.1 c.2) (mul := mul c.1 c.2) (pm := pm) (hm c.1 c.2) add
      refine ⟨s', q1, q2, q3, q4, q5, ?_⟩
      intro i
      rw [q7, ← u2]; rfl)
  obtain ⟨y2, z1, z2, z3, z4, z5, z6⟩ := reduce_final h hy0 hx0 hr how hth env.serU add env.gy env.gq r2 r3
    (x := x) m2 hq (fun _ => pm) m3
  refine ⟨x2, y2, ?_, f2, f3, f4, z2, z3, z4, z5, by unfold rowPairsOf; rw [r1]; exact z6⟩
  unfold DMat.spmspv
  simp only [Option.bind_eq_bind]
  rw [h.head hr, Option.bind_some]
  have e1 : (matOf m n ntx nty nrank ow T' 0).ntx = ntx := rfl
  have e2 : (matOf m n ntx nty nrank ow T' 0).nty = nty := rfl
  rw [e1, e2, c1, Option.bind_some, r1, Option.bind_some, b1, Option.bind_some, m1, Option.bind_some, f1,
    Option.bind_some, z1]
  rfl

theorem DMat.spmspv_spec {D : DMat E} {m n ntx nty nrank : Nat} {ow : Nat → Nat → Nat} {T' : Nat → Nat → Tile E}
    {P : Nat → Nat → Nat → List (Col E)} {all : List (Edge E)} (h : D.Rep m n ntx nty nrank ow T' P all)
    (hy0 : 0 < nty) (hx0 : 0 < ntx) (hr : 0 < nrank) (how : ∀ i j, ow i j < nrank) {threads : Nat} (hth : 0 < threads)
    (env : MulEnv T U V) {mul : Nat → Nat → Nat → Nat → E → T → U → U} {pm : E → T → U}
    (hm : ∀ i j p nz e x old, mul i j p nz e x old = pm e x) (add : U → U → U)
    {x : DVec T} {y : DVec U} (hx : x.WF n ntx nrank) (rx : x.Ready ntx nrank) (hy : y.WF m nty nrank)
    (hq : y.Quiet nty nrank) :
    ∃ (x' : DVec T) (y' : DVec U), D.spmspv env threads nrank mul add x y = some (x', y') ∧
      x'.WF n ntx nrank ∧ x'.Ready ntx nrank ∧ (∀ w, x'.sem n ntx nrank w = x.sem n ntx nrank w) ∧
      y'.WF m nty nrank ∧ y'.Ready nty nrank ∧ y'.Quiet nty nrank ∧
      (∀ w, 1 ≤ w → w ≤ m → ∀ l0, Reduces add l0 (y.sem m nty nrank w) →
        Reduces add (l0 ++ incoming (x.sem n ntx nrank) (fun _ => pm) all w) (y'.sem m nty nrank w)) ∧
      (∀ w, 1 ≤ w → w ≤ m → y'.sem m nty nrank w =
        rowFold add m nty nrank (rowPairsOf m n ntx nty nrank ow T') (y.sem m nty nrank w)
          (fun r => incoming (x.sem n ntx nrank) (fun _ => pm) (rankEdges m n ntx nty ow T' P r) w) w) :=
  DMat.spmspv_shared h hy0 hx0 hr how hth env hm add hx (fun p hp => .inl (rx p hp)) hy hq

theorem DMat.spmspv3_spec {D : DMat E} {m n ntx nty nrank : Nat} {ow : Nat → Nat → Nat} {T' : Nat → Nat → Tile E}
    {P : Nat → Nat → Nat → List (Col E)} {all : List (Edge E)} (h : D.Rep m n ntx nty nrank ow T' P all)
    (hy0 : 0 < nty) (hx0 : 0 < ntx) (hr : 0 < nrank) (how : ∀ i j, ow i j < nrank) {threads : Nat} (hth : 0 < threads)
    (env : MulEnv T U V) {mul : E → T → V → U → U} {pm : E → T → V → U}
    (hm : ∀ e x v old, mul e x v old = pm e x v) (add : U → U → U)
    {x : DVec T} {vp : DVec V} {y : DVec U} (hx : x.WF n ntx nrank) (rx : x.Ready ntx nrank)
    (hv : vp.WF m nty nrank) (rv : vp.Ready nty nrank) {vm : Nat → V}
    (hvm : ∀ w, 1 ≤ w → w ≤ m → vp.sem m nty nrank w = some (vm w)) (hy : y.WF m nty nrank)
    (hq : y.Quiet nty nrank) :
    ∃ (x' : DVec T) (vp' : DVec V) (y' : DVec U), D.spmspv3 env threads nrank mul add x vp y = some (x', vp', y') ∧
      x'.WF n ntx nrank ∧ x'.Ready ntx nrank ∧ (∀ w, x'.sem n ntx nrank w = x.sem n ntx nrank w) ∧
      vp'.WF m nty nrank ∧ vp'.Ready nty nrank ∧ (∀ w, vp'.sem m nty nrank w = vp.sem m nty nrank w) ∧
      y'.WF m nty nrank ∧ y'.Ready nty nrank ∧ y'.Quiet nty nrank ∧
      (∀ w, 1 ≤ w → w ≤ m → ∀ l0, Reduces add l0 (y.sem m nty nrank w) →
        Reduces add (l0 ++ incoming (x.sem n ntx nrank) (fun w e x => pm e x (vm w)) all w) (y'.sem m nty nrank w)) ∧
      (∀ w, 1 ≤ w → w ≤ m → y'.sem m nty nrank w =
        rowFold add m nty nrank (rowPairsOf m n ntx nty nrank ow T') (y.sem m nty nrank w)
          (fun r => incoming (x.sem n ntx nrank) (fun w e x => pm e x (vm w)) (rankEdges m n ntx nty ow T' P r) w) w) := by
  obtain ⟨cp, c1, c2, c3, c4⟩ := colPairs_spec (m := m) (n := n) (T := T') (ntx := ntx) (nty := nty) 0 how
  obtain ⟨rp, r1, r2, r3, r4⟩ := rowPairs_spec (m := m) (n := n) (T := T') (ntx := ntx) (nty := nty) 0 how
  obtain ⟨x1, b1, b2, b3⟩ := DVec.broadcast_spec hx hr env.serT hth env.gx c2 c4
  obtain ⟨x2, f1, f2, f3, f4⟩ := broadcast_free hr (rx.usable _) b2 b3
  obtain ⟨v1, w1, w2, w3⟩ := DVec.broadcast_spec hv hr env.serV hth env.gv r2 r4
  obtain ⟨v2, k1, k2, k3, k4⟩ := broadcast_free hr (rv.usable _) w2 w3
  obtain ⟨y1, m1, m2, m3⟩ := multiply_spec (ntx := ntx) (ow := ow) hy
    (B := fun r yv => (x1.read r).bind fun xv => (v1.read r).bind fun vv => (D[r]?).bind fun M =>
      M.foldTiles yv (fun i j t yv =>
      (xv.segs.read j).bind fun sx => (vv.segs.read i).bind fun sv =>
      yv.modifySeg i (fun sy => multSegment3 (env.gy r i) (env.tmp i j) mul add t sx sv sy)))
    (op := fun r c s => multSegment3 (env.gy r c.1) (env.tmp c.1 c.2) mul add (T' c.1 c.2)
      (x1.cell (r, c.2)) (v1.cell (r, c.1)) s) (by
      intro r hrr v
      rw [Arr.read_some (by rw [b2.size]; exact hrr), Option.bind_some,
        Arr.read_some (by rw [w2.size]; exact hrr), Option.bind_some, h.head hrr, Option.bind_some, foldTiles_spec]
      refine foldlM_ext ?_ v
      intro c hc v
      rw [List.mem_filter, mem_cells] at hc
      rw [Arr.read_some (by rw [(b2.rank r hrr).size]; exact hc.1.2),
        Option.bind_some, Arr.read_some (by rw [(w2.rank r hrr).size]; exact hc.1.1)]
      rfl) (add := add)
    (K := fun c => contrib (x.own nrank c.2).view
      (fun row => (fun w e x => pm e x (vm w)) (bnd m nty c.1 + row + 1)) (allEnts (T' c.1 c.2).np (P c.1 c.2))) (by
      intro r hrr c hc1 hc2 hco s hs hcap
      have ht := h.tile c.1 c.2 hc1 hc2
      obtain ⟨u1, u2⟩ := broadcast_use (rx.usable _) hc2 (b3 r c.2 hrr hc2) ((c3 _).mpr ⟨hc2, c.1, hc1, hco⟩)
      obtain ⟨t1, t2⟩ := broadcast_use (rv.usable _) hc1 (w3 r c.1 hrr hc1) ((r3 _).mpr ⟨hc1, c.2, hc2, hco⟩)
      obtain ⟨s', q1, q2, q3, q4, q5, q6, q7⟩ := multSegment3_spec ht.1 ((b2.rank r hrr).seg c.2 hc2) u1
        ((w2.rank r hrr).seg c.1 hc1) t1 hs
        (by rw [ht.2.2.1]; exact (b2.rank r hrr).cap c.2 hc2) (by rw [ht.2.1]; exact (w2.rank r hrr).cap c.1 hc1)
        (by rw [hcap, ht.2.1]) (vm := fun i => vm (bnd m nty c.1 + i + 1)) (by
          intro i hi
          rw [ht.2.1] at hi
          have hle := bnd_le (n := m) (nseg := nty) (i := c.1 + 1)
          have := hvm (bnd m nty c.1 + i + 1) (by omega) (by omega)
          rw [DVec.sem_of (p := c.1) (getPartition_iff.mpr ⟨hc1, by omega, by omega⟩)] at this
          rw [show bnd m nty c.1 + i + 1 - bnd m nty c.1 - 1 = i by omega] at this
          rw [← this]
          exact congrFun t2 i)
        (env.gy r c.1) (env.tmp c.1 c.2) (mul := mul) (pm := pm) hm add
      refine ⟨s', q1, q2, q3, q4, q5, ?_⟩
      intro i
      rw [q7, ← u2]; rfl)
  obtain ⟨y2, z1, z2, z3, z4, z5, z6⟩ := reduce_final h hy0 hx0 hr how hth env.serU add env.gy env.gq r2 r3
    (x := x) m2 hq (fun w e x => pm e x (vm w)) m3
  refine ⟨x2, v2, y2, ?_, f2, f3, f4, k2, k3, k4, z2, z3, z4, z5, by unfold rowPairsOf; rw [r1]; exact z6⟩
  unfold DMat.spmspv3
  simp only [Option.bind_eq_bind]
  rw [h.head hr, Option.bind_some]
  have e1 : (matOf m n ntx nty nrank ow T' 0).ntx = ntx := rfl
  have e2 : (matOf m n ntx nty nrank ow T' 0).nty = nty := rfl
  rw [e1, e2, c1, Option.bind_some, r1, Option.bind_some, b1, Option.bind_some, w1, Option.bind_some, m1,
    Option.bind_some, f1, Option.bind_some, k1, Option.bind_some, z1]
  rfl

end GraphMat

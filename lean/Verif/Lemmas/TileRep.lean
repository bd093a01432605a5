import Verif.Lemmas.TileBuild

/-! A DCSC tile as a sequence of columns per partition, and what the constructor and `get_edges` do. -/
namespace GraphMat

variable {E : Type} {σ : Type}

/-- Offset of the first entry of partition `p`. -/
def eoff (P : Nat → List (Col E)) (p : Nat) : Nat := psum (fun q => (ents (P q)).length) p

/-- Offset of the first column of partition `p` (each partition has one column too many). -/
def coff (P : Nat → List (Col E)) (p : Nat) : Nat := psum (fun q => (P q).length + 1) p

/-- The arrays of the tile represent the columns `P p` of the partitions `p < np`. -/
structure Tile.Rep (t : Tile E) (P : Nat → List (Col E)) : Prop where
  ep : ∀ p, p < t.np → t.ep.read p = some (eoff P p) ∧ t.ep.read (p + 1) = some (eoff P (p + 1))
  cs : ∀ p, p < t.np → t.cs.read p = some (coff P p) ∧ t.cs.read (p + 1) = some (coff P (p + 1))
  rp : ∀ p, p < t.np → t.rp.read p = some (t.rp.get p) ∧ t.rp.read (p + 1) = some (t.rp.get (p + 1))
  col : ∀ p, p < t.np → ∀ j (hj : j < (P p).length), t.colIdx.read (coff P p + j) = some (P p)[j].1
  ptr : ∀ p, p < t.np → ∀ j, j ≤ (P p).length → t.colPtrs.read (coff P p + j) = some (clen (P p) j)
  row : ∀ p, p < t.np → ∀ k (hk : k < (ents (P p)).length),
    t.rowInds.read (eoff P p + k) = some (ents (P p))[k].1
  val : ∀ p, p < t.np → ∀ k (hk : k < (ents (P p)).length),
    t.vals.read (eoff P p + k) = some (ents (P p))[k].2
  nnz : t.nnz = eoff P t.np
  valsz : t.vals.size = t.nnz
  mono : ∀ p, p < t.np → t.rp.get p ≤ t.rp.get (p + 1)
  first : 0 < t.np → t.rp.get 0 = 0
  final : 0 < t.np → t.rp.get t.np = t.m
  align : ∀ p, 0 < t.np → p ≤ t.np → 32 ∣ t.rp.get p ∨ t.rp.get p = t.m
  incr : ∀ p, p < t.np → (P p).Pairwise (fun a b => a.1 < b.1)
  full : ∀ p, p < t.np → ∀ c ∈ P p, c.2 ≠ []
  cols : ∀ p, p < t.np → ∀ c ∈ P p, c.1 < t.n
  rows : ∀ p, p < t.np → ∀ c ∈ P p, ∀ e ∈ c.2, t.rp.get p ≤ e.1 ∧ e.1 < t.rp.get (p + 1)
  noEdges : t.nnz = 0 → t.np = 0
  sizes : 0 < t.np → t.rowInds.size = t.nnz ∧ t.rp.size = t.np + 1 ∧ t.ep.size = t.np + 1 ∧ t.cs.size = t.np + 1 ∧
    t.colPtrs.size = coff P t.np ∧ t.colIdx.size = coff P t.np ∧ t.numCols = coff P t.np

/-- The entries (row, column, value) of a tile in stored order. -/
def allEnts (np : Nat) (P : Nat → List (Col E)) : List (Nat × Nat × E) :=
  (List.range np).flatMap (fun p => flat (P p))

theorem mem_flat {C : List (Col E)} {x : Nat × Nat × E} :
    x ∈ flat C ↔ ∃ c ∈ C, ∃ e ∈ c.2, x = (e.1, c.1, e.2) := by
  unfold flat
  rw [List.mem_flatMap]
  constructor
  · rintro ⟨c, hc, hx⟩
    rw [List.mem_map] at hx
    obtain ⟨e, he, rfl⟩ := hx
    exact ⟨c, hc, e, he, rfl⟩
  · rintro ⟨c, hc, e, he, rfl⟩
    exact ⟨c, hc, List.mem_map.mpr ⟨e, he, rfl⟩⟩

theorem flat_length (C : List (Col E)) : (flat C).length = (ents C).length := by
  unfold flat ents
  rw [List.length_flatMap, List.length_flatMap]
  simp

theorem allEnts_length (np : Nat) (P : Nat → List (Col E)) : (allEnts np P).length = eoff P np := by
  unfold allEnts eoff
  induction np with
  | zero => rfl
  | succ np ih => rw [List.range_succ, List.flatMap_append, List.length_append, ih, psum]; simp [flat_length]

/-- A tile without edges. -/
theorem Tile.empty_rep (g : TileFresh E) (k m n : Nat) (P : Nat → List (Col E)) : (Tile.empty g k m n).Rep P := by
  constructor <;> (try intro p hp; exact absurd hp (Nat.not_lt_zero _))
  · rfl
  · rfl
  · intro h; exact absurd h (Nat.not_lt_zero _)
  · intro h; exact absurd h (Nat.not_lt_zero _)
  · intro _; rfl
  · intro h; exact absurd h (Nat.not_lt_zero _)

theorem forLoop_parts (S : List (TEdge E)) {np n : Nat} {ep cs : Arr Nat}
    (hS : S.Pairwise (fun a b => a.tile ≤ b.tile)) (hnp : ∀ e ∈ S, e.tile < np)
    (hes : ep.size = np + 1) (he : ∀ p, p ≤ np → ep.get p = psum (fun q => (partOf S q).length) p)
    (hcs : cs.size = np + 1)
    (hc : ∀ p, p ≤ np → cs.get p = psum (fun q => (colsOf (partOf S q)).length + 1) p)
    (b0 : TileBuf E) (h1 : b0.vals.size = S.length) (h2 : b0.rowInds.size = S.length)
    (h3 : b0.colIdx.size = psum (fun q => (colsOf (partOf S q)).length + 1) np)
    (h4 : b0.colPtrs.size = psum (fun q => (colsOf (partOf S q)).length + 1) np) :
    ∃ b, forLoop 0 np b0 (buildPart S ep cs n) = some b ∧
      b.vals.size = S.length ∧ b.rowInds.size = S.length ∧
      b.colIdx.size = psum (fun q => (colsOf (partOf S q)).length + 1) np ∧
      b.colPtrs.size = psum (fun q => (colsOf (partOf S q)).length + 1) np ∧
      ∀ p, p < np →
        (∀ k (hk : k < (partOf S p).length),
          b.vals.get (psum (fun q => (partOf S q).length) p + k) = (partOf S p)[k].val ∧
          b.rowInds.get (psum (fun q => (partOf S q).length) p + k) = (partOf S p)[k].src) ∧
        (∀ j (hj : j < (colsOf (partOf S p)).length),
          b.colIdx.get (psum (fun q => (colsOf (partOf S q)).length + 1) p + j) = (colsOf (partOf S p))[j].1) ∧
        (∀ j, j ≤ (colsOf (partOf S p)).length →
          b.colPtrs.get (psum (fun q => (colsOf (partOf S q)).length + 1) p + j) = clen (colsOf (partOf S p)) j) := by
  have htot := sum_parts hnp
  obtain ⟨eo, heo⟩ : ∃ eo, eo = psum (fun q => (partOf S q).length) := ⟨_, rfl⟩
  obtain ⟨co, hco⟩ : ∃ co, co = psum (fun q => (colsOf (partOf S q)).length + 1) := ⟨_, rfl⟩
  have heos : ∀ p, eo (p + 1) = eo p + (partOf S p).length := by intro p; rw [heo]; rfl
  have hcos : ∀ p, co (p + 1) = co p + ((colsOf (partOf S p)).length + 1) := by intro p; rw [hco]; rfl
  have heom : ∀ {p q}, p ≤ q → eo p ≤ eo q := by intro p q h; rw [heo]; exact psum_mono _ h
  have hcom : ∀ {p q}, p ≤ q → co p ≤ co q := by intro p q h; rw [hco]; exact psum_mono _ h
  have hel : ∀ p k (hk : k < (partOf S p).length), S[eo p + k]? = some (partOf S p)[k] := by
    intro p k hk; rw [heo]; exact partOf_getElem hS hk
  simp only [← heo, ← hco] at *
  obtain ⟨b, hb, i1, i2, i3, i4, i5⟩ := forLoop_inv (lo := 0) (hi := np) (s := b0) (body := buildPart S ep cs n)
    (fun p b => b.vals.size = S.length ∧ b.rowInds.size = S.length ∧ b.colIdx.size = co np ∧
      b.colPtrs.size = co np ∧ ∀ q, q < p →
        (∀ k (hk : k < (partOf S q).length),
          b.vals.get (eo q + k) = (partOf S q)[k].val ∧ b.rowInds.get (eo q + k) = (partOf S q)[k].src) ∧
        (∀ j (hj : j < (colsOf (partOf S q)).length),
          b.colIdx.get (co q + j) = (colsOf (partOf S q))[j].1) ∧
        (∀ j, j ≤ (colsOf (partOf S q)).length →
          b.colPtrs.get (co q + j) = clen (colsOf (partOf S q)) j))
    (Nat.zero_le _) ⟨h1, h2, h3, h4, by intro q hq; omega⟩ (by
      intro p b _ hp ⟨j1, j2, j3, j4, j5⟩
      have a1 := heom (show p + 1 ≤ np by omega)
      have a2 := hcom (show p + 1 ≤ np by omega)
      rw [heos] at a1
      rw [hcos] at a2
      obtain ⟨b', hb', hok⟩ := buildPart_spec (S := S) (ep := ep) (cs := cs) (n := n) (p := p) (lo := eo p)
        (c0 := co p) (L := partOf S p) (b0 := b)
        (by rw [Arr.read_some (by omega), he p (by omega)])
        (by rw [Arr.read_some (by omega), he (p + 1) (by omega), heos])
        (by rw [Arr.read_some (by omega), hc p (by omega)])
        (by rw [Arr.read_some (by omega), hc (p + 1) (by omega), hcos])
        (hel p) (by omega) (by omega) (by omega) (by omega)
      refine ⟨b', hb', by rw [hok.sv, j1], by rw [hok.sr, j2], by rw [hok.si, j3], by rw [hok.sp, j4], ?_⟩
      intro q hq
      by_cases hqp : q = p
      · subst hqp
        exact ⟨fun k hk => ⟨hok.val k hk, hok.row k hk⟩, hok.idx, hok.ptr⟩
      · have hq' : q < p := by omega
        obtain ⟨k1, k2, k3⟩ := j5 q hq'
        have b1 := heom (show q + 1 ≤ p by omega)
        have b2 := hcom (show q + 1 ≤ p by omega)
        rw [heos] at b1
        rw [hcos] at b2
        refine ⟨fun k hk => ⟨?_, ?_⟩, fun j hj => ?_, fun j hj => ?_⟩
        · rw [hok.fval _ (by omega)]; exact (k1 k hk).1
        · rw [hok.frow _ (by omega)]; exact (k1 k hk).2
        · rw [hok.fidx _ (by omega)]; exact k2 j hj
        · rw [hok.fptr _ (by omega)]; exact k3 j hj)
  exact ⟨b, hb, i1, i2, i3, i4, i5⟩

theorem compareDcsc_false {a b : TEdge E} (h : compareDcsc b a = false) :
    a.tile ≤ b.tile ∧ (a.tile = b.tile → ColOrder a b) := by
  unfold compareDcsc at h
  unfold ColOrder
  by_cases h1 : b.tile < a.tile
  · rw [if_pos h1] at h; cases h
  rw [if_neg h1] at h
  refine ⟨by omega, fun he => ?_⟩
  rw [if_neg (by omega)] at h
  by_cases h2 : b.dst < a.dst
  · rw [if_pos h2] at h; cases h
  rw [if_neg h2] at h
  by_cases h3 : b.dst > a.dst
  · exact Or.inl h3
  rw [if_neg h3] at h
  by_cases h4 : b.src < a.src
  · rw [if_pos h4] at h; cases h
  exact Or.inr ⟨by omega, by omega⟩

/-- The local position of an edge. -/
def localOf (rowStart colStart : Nat) (e : Edge E) : Nat × Nat × E :=
  ((e.src - 1 - rowStart).toNat, (e.dst - 1 - colStart).toNat, e.val)

/-- The edge lies in the tile. -/
def InTile (m n rowStart colStart : Nat) (e : Edge E) : Prop :=
  (rowStart : Int) < e.src ∧ e.src ≤ (rowStart : Int) + m ∧
  (colStart : Int) < e.dst ∧ e.dst ≤ (colStart : Int) + n

theorem placeEdge_spec {rp : Arr Nat} {np m n rs cs : Nat} {e : Edge E} (hsz : rp.size = np + 1)
    (h0 : rp.get 0 = 0) (hm : rp.get np = m) (h : InTile m n rs cs e) :
    ∃ t : TEdge E, placeEdge rp np m n rs cs e = some t ∧ (t.src, t.dst, t.val) = localOf rs cs e ∧
      t.tile < np ∧ rp.get t.tile ≤ t.src ∧ t.src < rp.get (t.tile + 1) ∧ t.dst < n := by
  obtain ⟨a1, a2, a3, a4⟩ := h
  obtain ⟨s, hs⟩ : ∃ s : Nat, e.src - 1 - (rs : Int) = s := ⟨(e.src - 1 - rs).toNat, by omega⟩
  obtain ⟨d, hd⟩ : ∃ d : Nat, e.dst - 1 - (cs : Int) = d := ⟨(e.dst - 1 - cs).toNat, by omega⟩
  obtain ⟨p, p1, p2, p3, p4⟩ := findPart_spec hsz h0 np (Nat.le_refl _) (show s < rp.get np by omega)
  refine ⟨⟨s, d, p, e.val⟩, ?_, ?_, p1, p3, p4, by simp; omega⟩
  · unfold placeEdge
    simp only [hs, hd]
    rw [p2]
    simp only [Option.bind_eq_bind, Option.bind_some]
    rw [if_pos (by omega)]
    simp
  · unfold localOf
    simp only [hs, hd, Int.toNat_natCast]

/-- **The constructor.** -/
theorem Tile.build_spec (g : TileFresh E) {threads : Nat} (ht : 0 < threads)
    {sort : List (TEdge E) → List (TEdge E)} (hsort : SortsBy compareDcsc sort)
    {edges : List (Edge E)} {m n rs cs : Nat} (hin : ∀ e ∈ edges, InTile m n rs cs e) :
    ∃ t P, Tile.build g threads sort edges m n rs cs = some t ∧ t.Rep P ∧ t.m = m ∧ t.n = n ∧
      t.nnz = edges.length ∧ (allEnts t.np P).Perm (edges.map (localOf rs cs)) := by
  unfold Tile.build
  by_cases hlen' : ¬ edges.length > 0
  · have : edges = [] := by rw [← List.length_eq_zero_iff]; omega
    subst this
    rw [if_neg hlen']
    exact ⟨_, fun _ => [], rfl, Tile.empty_rep _ _ _ _ _, rfl, rfl, rfl, List.Perm.refl _⟩
  have hlen : edges.length > 0 := by omega
  rw [if_pos hlen]
  clear hlen'
  simp only [Option.bind_eq_bind]
  obtain ⟨np, hnp⟩ : ∃ np, np = threads * 16 := ⟨_, rfl⟩
  have hnp0 : 0 < np := by omega
  rw [← hnp]
  obtain ⟨rp, hrp, r1, r2, r3, r4, r5⟩ := staticPartition_spec (g.ints 1) m hnp0
  rw [hrp, Option.bind_some]
  have hplace : ∃ pe : List (TEdge E), edges.mapM (placeEdge rp np m n rs cs) = some pe ∧
      pe.map (fun t => (t.src, t.dst, t.val)) = edges.map (localOf rs cs) ∧
      ∀ t ∈ pe, t.tile < np ∧ rp.get t.tile ≤ t.src ∧ t.src < rp.get (t.tile + 1) ∧ t.dst < n := by
    clear hlen
    induction edges with
    | nil => exact ⟨[], rfl, rfl, by simp⟩
    | cons e es ih =>
      obtain ⟨pe, e1, e2, e3⟩ := ih (fun e he => hin e (List.mem_cons_of_mem _ he))
      obtain ⟨t, t1, t2, t3⟩ := placeEdge_spec r1 r2 r3 (hin e List.mem_cons_self)
      refine ⟨t :: pe, ?_, ?_, ?_⟩
      · rw [List.mapM_cons, t1, e1]; rfl
      · rw [List.map_cons, List.map_cons, t2, e2]
      · intro x hx
        rw [List.mem_cons] at hx
        rcases hx with rfl | hx
        · exact t3
        · exact e3 x hx
  obtain ⟨pe, hpe, pe1, pe2⟩ := hplace
  rw [hpe, Option.bind_some]
  obtain ⟨s1, s2⟩ := hsort pe
  obtain ⟨S, hSdef⟩ : ∃ S, S = sort pe := ⟨_, rfl⟩
  rw [← hSdef] at s1 s2 ⊢
  have hSin : ∀ t ∈ S, t.tile < np ∧ rp.get t.tile ≤ t.src ∧ t.src < rp.get (t.tile + 1) ∧ t.dst < n :=
    fun t ht => pe2 t (s1.mem_iff.mp ht)
  have hSt : S.Pairwise (fun a b => a.tile ≤ b.tile) := s2.imp (fun h => (compareDcsc_false h).1)
  have hSlen : S.length = edges.length := by
    rw [s1.length_eq]
    have := congrArg List.length pe1
    simpa using this
  have hpo : ∀ p, (partOf S p).Pairwise ColOrder := by
    intro p
    have h1 : (partOf S p).Pairwise (fun a b => compareDcsc b a = false) := s2.sublist List.filter_sublist
    refine List.Pairwise.imp_of_mem ?_ h1
    intro a b ha hb hab
    apply (compareDcsc_false hab).2
    unfold partOf at ha hb
    rw [List.mem_filter] at ha hb
    have := ha.2; have := hb.2
    simp at *
    omega
  obtain ⟨ep, hep, ep1, ep2⟩ := setEdgePointers_spec (g.ints 2) r1 r4 hSt (fun e he => ⟨(hSin e he).1, (hSin e he).2.1, (hSin e he).2.2.1⟩)
  simp only [countP_tile] at ep2
  rw [hep, Option.bind_some]
  rw [mapM_some (g := fun p => (colsOf (partOf S p)).length) (by
    intro p hp
    rw [List.mem_range] at hp
    refine countCols_spec (L := partOf S p) (Arr.read_some (by omega)) (Arr.read_some (by omega)) ?_ ?_
    · rw [ep2 (p + 1) (by omega), ep2 p (by omega)]; rfl
    · intro k hk
      rw [ep2 p (by omega)]; exact partOf_getElem hSt hk), Option.bind_some]
  obtain ⟨css, hcs, c1, c2⟩ := scanCols_spec (g.ints 3) (len := fun p => (colsOf (partOf S p)).length) (np := np)
  rw [hcs, Option.bind_some]
  rw [Arr.read_some (by show np < css.size; omega), Option.bind_some]
  simp only [c2 np (Nat.le_refl _)]
  obtain ⟨b, hb, b1, b2, b3, b4, b5⟩ := forLoop_parts S (n := n) hSt (fun e he => (hSin e he).1) ep1 ep2 c1 c2
    { vals := ⟨edges.length, g.vals⟩, rowInds := ⟨edges.length, g.ints 0⟩,
      colIdx := ⟨psum (fun q => (colsOf (partOf S q)).length + 1) np, g.ints 5⟩,
      colPtrs := ⟨psum (fun q => (colsOf (partOf S q)).length + 1) np, g.ints 4⟩ }
    (by rw [hSlen]) (by rw [hSlen]) rfl rfl
  rw [hb, Option.bind_some]
  have heo : ∀ p, eoff (fun p => colsOf (partOf S p)) p = psum (fun q => (partOf S q).length) p := by
    intro p
    apply psum_congr
    intro q _
    rw [ents_colsOf, List.length_map]
  have htot := sum_parts (fun e he => (hSin e he).1)
  have hflat : ∀ p, flat (colsOf (partOf S p)) = (partOf S p).map (fun e => (e.src, e.dst, e.val)) :=
    fun p => (colsOf_spec (hpo p)).1
  refine ⟨_, fun p => colsOf (partOf S p), rfl, ?_, rfl, rfl, rfl, ?_⟩
  · constructor <;> simp only
    · intro p hp
      rw [heo, heo, Arr.read_some (by omega), Arr.read_some (by omega), ep2 p (by omega), ep2 (p + 1) (by omega)]
      exact ⟨rfl, rfl⟩
    · intro p hp
      rw [Arr.read_some (by omega), Arr.read_some (by omega), c2 p (by omega), c2 (p + 1) (by omega)]
      exact ⟨rfl, rfl⟩
    · intro p hp
      exact ⟨Arr.read_some (by omega), Arr.read_some (by omega)⟩
    · intro p hp j hj
      have hm := psum_mono (fun q => (colsOf (partOf S q)).length + 1) (show p + 1 ≤ np by omega)
      rw [psum] at hm
      unfold coff
      simp only
      rw [Arr.read_some (by rw [b3]; omega), (b5 p hp).2.1 j hj]
    · intro p hp j hj
      have hm := psum_mono (fun q => (colsOf (partOf S q)).length + 1) (show p + 1 ≤ np by omega)
      rw [psum] at hm
      unfold coff
      simp only
      rw [Arr.read_some (by rw [b4]; omega), (b5 p hp).2.2 j hj]
    · intro p hp k hk
      have hk' : k < (partOf S p).length := by rw [ents_colsOf] at hk; simpa using hk
      have hm := psum_mono (fun q => (partOf S q).length) (show p + 1 ≤ np by omega)
      rw [psum] at hm
      rw [heo, Arr.read_some (by rw [b2]; omega), ((b5 p hp).1 k hk').2]
      simp only [ents_colsOf, List.getElem_map]
    · intro p hp k hk
      have hk' : k < (partOf S p).length := by rw [ents_colsOf] at hk; simpa using hk
      have hm := psum_mono (fun q => (partOf S q).length) (show p + 1 ≤ np by omega)
      rw [psum] at hm
      rw [heo, Arr.read_some (by rw [b1]; omega), ((b5 p hp).1 k hk').1]
      simp only [ents_colsOf, List.getElem_map]
    · rw [heo, htot, hSlen]
    · rw [b1, hSlen]
    · exact r4
    · exact fun _ => r2
    · exact fun _ => r3
    · exact fun p _ hp => r5 p hp
    · exact fun p _ => (colsOf_spec (hpo p)).2.1
    · exact fun p _ => (colsOf_spec (hpo p)).2.2.1
    · intro p hp c hc
      have hne := (colsOf_spec (hpo p)).2.2.1 c hc
      obtain ⟨e, he⟩ := List.exists_mem_of_ne_nil _ hne
      have : (e.1, c.1, e.2) ∈ flat (colsOf (partOf S p)) := mem_flat.mpr ⟨c, hc, e, he, rfl⟩
      rw [hflat, List.mem_map] at this
      obtain ⟨x, hx, hx2⟩ := this
      have hxS : x ∈ S := (List.mem_filter.mp hx).1
      have := (hSin x hxS).2.2.2
      simp only [Prod.mk.injEq] at hx2
      omega
    · intro p hp c hc e he
      have : (e.1, c.1, e.2) ∈ flat (colsOf (partOf S p)) := mem_flat.mpr ⟨c, hc, e, he, rfl⟩
      rw [hflat, List.mem_map] at this
      obtain ⟨x, hx, hx2⟩ := this
      have hx' := List.mem_filter.mp hx
      have h5 : x.tile = p := by simpa using hx'.2
      have := hSin x hx'.1
      simp only [Prod.mk.injEq] at hx2
      rw [h5] at this
      omega
    · intro h; omega
    · intro _
      exact ⟨by rw [b2, hSlen], r1, ep1, c1, b4, b3, rfl⟩
  · unfold allEnts
    simp only [hflat]
    have : (List.range np).flatMap (fun p => (partOf S p).map (fun e => (e.src, e.dst, e.val))) =
        S.map (fun e => (e.src, e.dst, e.val)) := by
      rw [← List.map_flatMap, flatMap_partOf hSt]
      congr 1
      rw [List.filter_eq_self]
      intro e he
      simpa using (hSin e he).1
    rw [this, ← pe1]
    exact s1.map _

/-! ### Walking over a tile -/

/-- A loop over the entries of column `j` of partition `p`. -/
theorem Tile.Rep.inner {P : Nat → List (Col E)} {p j : Nat} (hj : j < (P p).length)
    {body : Nat → σ → Option σ} {F : σ → Nat × E → Option σ}
    (hF : ∀ k (hk : k < (ents (P p)).length) s, body k s = F s (ents (P p))[k]) (s : σ) :
    forLoop (clen (P p) j) (clen (P p) (j + 1)) s body = (P p)[j].2.foldlM F s := by
  refine forLoop_list (clen_succ hj) ?_ s
  intro k hk s
  have := ents_getElem hj hk
  rw [List.getElem?_eq_some_iff] at this
  obtain ⟨h1, h2⟩ := this
  rw [hF _ h1 s, h2]

theorem coff_succ (P : Nat → List (Col E)) (p : Nat) : coff P (p + 1) - coff P p - 1 = (P p).length := by
  unfold coff; rw [psum]; omega

theorem foldlM_flatMap {β γ : Type} {l : List β} {f : β → List γ} {F : σ → γ → Option σ} (s : σ) :
    (l.flatMap f).foldlM F s = l.foldlM (fun s b => (f b).foldlM F s) s := by
  induction l generalizing s with
  | nil => rfl
  | cons a l ih =>
    rw [List.flatMap_cons, List.foldlM_append, List.foldlM_cons]
    cases (f a).foldlM F s with
    | none => rfl
    | some s' => exact ih s'

theorem foldlM_map {β γ : Type} {l : List β} {f : β → γ} {F : σ → γ → Option σ} (s : σ) :
    (l.map f).foldlM F s = l.foldlM (fun s b => F s (f b)) s := by
  induction l generalizing s with
  | nil => rfl
  | cons a l ih =>
    rw [List.map_cons, List.foldlM_cons, List.foldlM_cons]
    cases F s (f a) with
    | none => rfl
    | some s' => exact ih s'

theorem foldlM_ext {β : Type} {l : List β} {F G : σ → β → Option σ} (h : ∀ b ∈ l, ∀ s, F s b = G s b) (s : σ) :
    l.foldlM F s = l.foldlM G s := by
  induction l generalizing s with
  | nil => rfl
  | cons a l ih =>
    rw [List.foldlM_cons, List.foldlM_cons, h a List.mem_cons_self]
    cases G s a with
    | none => rfl
    | some s' => exact ih (fun b hb => h b (List.mem_cons_of_mem _ hb)) s'

theorem forLoop_range {n : Nat} {body : Nat → σ → Option σ} (s : σ) :
    forLoop 0 n s body = (List.range n).foldlM (fun s i => body i s) s := by
  unfold forLoop; rw [List.range_eq_range']; rfl

theorem foldlM_snoc {β γ : Type} (l : List β) (f : β → γ) (acc : List γ) :
    l.foldlM (fun (out : List γ) b => some (out ++ [f b])) acc = some (acc ++ l.map f) := by
  induction l generalizing acc with
  | nil => simp
  | cons a l ih =>
    rw [List.foldlM_cons]
    show List.foldlM _ (acc ++ [f a]) l = _
    rw [ih]; simp

/-- `get_edges` returns the entries in stored order. -/
theorem Tile.Rep.getEdges {t : Tile E} {P : Nat → List (Col E)} (h : t.Rep P) (rs cs : Nat) :
    t.getEdges rs cs = some ((allEnts t.np P).map (fun x =>
      { src := (rs : Int) + x.1 + 1, dst := (cs : Int) + x.2.1 + 1, val := x.2.2 })) := by
  unfold Tile.getEdges
  simp only [Option.bind_eq_bind]
  rw [forLoop_range]
  rw [foldlM_ext (G := fun out p => (flat (P p)).foldlM (fun (out : List (Edge E)) x => some (out ++
    [{ src := (rs : Int) + x.1 + 1, dst := (cs : Int) + x.2.1 + 1, val := x.2.2 }])) out) (by
    intro p hp out
    rw [List.mem_range] at hp
    rw [(h.cs p hp).1, (h.cs p hp).2]
    simp only [Option.bind_some]
    rw [coff_succ, flat, foldlM_flatMap]
    refine forLoop_list (by simp) ?_ out
    intro j hj out
    rw [Nat.zero_add, h.col p hp j hj, h.ptr p hp j (by omega), Nat.add_assoc, h.ptr p hp (j + 1) (by omega)]
    simp only [Option.bind_some]
    rw [foldlM_map]
    refine Tile.Rep.inner hj ?_ out
    intro k hk out
    rw [(h.ep p hp).1]
    simp only [Option.bind_some]
    rw [h.row p hp k hk, h.val p hp k hk]
    rfl)]
  rw [← foldlM_flatMap (f := fun p => flat (P p))]
  have := foldlM_snoc (allEnts t.np P) (fun x =>
    ({ src := (rs : Int) + x.1 + 1, dst := (cs : Int) + x.2.1 + 1, val := x.2.2 } : Edge E)) []
  rw [List.nil_append] at this
  unfold allEnts at this ⊢
  rw [this, Option.bind_some, if_pos]
  rw [List.length_map, h.nnz]
  exact allEnts_length t.np P

end GraphMat

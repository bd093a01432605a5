import Verif.Lemmas.Keyed
import Verif.Props.Layout

/-! Building a distributed matrix from an edge list. -/
namespace GraphMat

variable {E V : Type}

/-- Both ids of the edge are inside an `m` by `n` matrix. -/
def InMat (m n : Nat) (e : Edge E) : Prop := 1 ≤ e.src ∧ e.src ≤ m ∧ 1 ≤ e.dst ∧ e.dst ≤ n

/-- The tile of an edge. -/
def tileOf (m n nty ntx : Nat) (e : Edge E) : Nat × Nat := (matPartition m n nty ntx e.src e.dst).getD (0, 0)

theorem tileOf_spec {m n nty ntx : Nat} {e : Edge E} (hy : 0 < nty) (hx : 0 < ntx) (h : InMat m n e) :
    matPartition m n nty ntx e.src e.dst = some (tileOf m n nty ntx e) ∧
    (tileOf m n nty ntx e).1 < nty ∧ (tileOf m n nty ntx e).2 < ntx ∧
    (bnd m nty (tileOf m n nty ntx e).1 : Int) < e.src ∧ e.src ≤ bnd m nty ((tileOf m n nty ntx e).1 + 1) ∧
    (bnd n ntx (tileOf m n nty ntx e).2 : Int) < e.dst ∧ e.dst ≤ bnd n ntx ((tileOf m n nty ntx e).2 + 1) := by
  obtain ⟨h1, h2, h3, h4⟩ := h
  obtain ⟨s, hs⟩ : ∃ s : Nat, e.src = s := ⟨e.src.toNat, by omega⟩
  obtain ⟨d, hd⟩ : ∃ d : Nat, e.dst = d := ⟨e.dst.toNat, by omega⟩
  unfold tileOf
  rw [hs] at h1 h2 ⊢
  rw [hd] at h3 h4 ⊢
  obtain ⟨i, j, e1, e2, e3, _, e4, e5⟩ := matPartition_exact m n nty ntx 1 s d hy hx (Nat.le_refl 1)
    (by omega) (by omega) (by omega) (by omega)
  rw [e1]
  have g1 := getPartition_some e4
  have g2 := getPartition_some e5
  exact ⟨rfl, e2, e3, g1.2.1, g1.2.2, g2.2.1, g2.2.2⟩

theorem tileOf_inTile {m n nty ntx i j : Nat} {e : Edge E} (hy : 0 < nty) (hx : 0 < ntx) (h : InMat m n e)
    (ht : tileOf m n nty ntx e = (i, j)) :
    InTile (bnd m nty (i + 1) - bnd m nty i) (bnd n ntx (j + 1) - bnd n ntx j) (bnd m nty i) (bnd n ntx j) e := by
  obtain ⟨_, _, _, h1, h2, h3, h4⟩ := tileOf_spec hy hx h
  rw [ht] at h1 h2 h3 h4
  have a1 := bnd_mono (n := m) (nseg := nty) (i := i)
  have a2 := bnd_mono (n := n) (nseg := ntx) (i := j)
  refine ⟨h1, ?_, h3, ?_⟩
  · simp only at h2; omega
  · simp only at h4; omega

theorem startIds_get {n nseg i : Nat} (h : i ≤ nseg) : (startIds n nseg)[i]? = some (bnd n nseg i) := by
  rw [startIds_eq]
  simp [Nat.lt_succ_of_le h]

/-- The library sorts behave as sorts. -/
structure Sorts.OK (s : Sorts E) : Prop where
  owner : ∀ r, SortsBy compareTileId (s.owner r)
  tile : ∀ r, SortsBy compareTileId (s.tile r)
  dcsc : ∀ r i j, SortsBy compareDcsc (s.dcsc r i j)

theorem sorted_keys {L : List (Edge E × Nat)} (h : L.Pairwise (fun a b => compareTileId b a = false)) :
    L.Pairwise (fun a b => a.2 ≤ b.2) := by
  refine h.imp ?_
  intro a b hab
  unfold compareTileId at hab
  simp at hab; omega

theorem pairwise_map_snd {L : List (Edge E × Nat)} (h : L.Pairwise (fun a b => a.2 ≤ b.2)) :
    (L.map (·.2)).Pairwise (· ≤ ·) := by
  rw [List.pairwise_map]; exact h

theorem filter_map_pair (l : List (Edge E)) (key : Edge E → Nat) (k : Nat) :
    ((l.map (fun e => (e, key e))).filter (fun a => decide (a.2 = k))).map (·.1) =
      l.filter (fun e => decide (key e = k)) := by
  induction l with
  | nil => rfl
  | cons a l ih =>
    by_cases h : key a = k
    · rw [List.map_cons, List.filter_cons_of_pos (by simpa using h), List.filter_cons_of_pos (by simpa using h),
        List.map_cons, ih]
    · rw [List.map_cons, List.filter_cons_of_neg (by simpa using h), List.filter_cons_of_neg (by simpa using h), ih]

theorem tileKey_inj {nty i j i' j' : Nat} (hi : i < nty) (hi' : i' < nty) :
    i + j * nty = i' + j' * nty ↔ i = i' ∧ j = j' := by
  constructor
  · intro h
    have h1 := congrArg (· % nty) h
    simp only [Nat.add_mul_mod_self_right, Nat.mod_eq_of_lt hi, Nat.mod_eq_of_lt hi'] at h1
    subst h1
    refine ⟨rfl, ?_⟩
    have : j * nty = j' * nty := by omega
    exact Nat.eq_of_mul_eq_mul_right (by omega) this
  · rintro ⟨rfl, rfl⟩; rfl

/-- What a tile of a rank must be after `ingestEdgelist`. -/
def TileHolds (m n nty ntx i j : Nat) (es : List (Edge E)) (t : Tile E) (P : Nat → List (Col E)) : Prop :=
  t.Rep P ∧ t.m = bnd m nty (i + 1) - bnd m nty i ∧ t.n = bnd n ntx (j + 1) - bnd n ntx j ∧
  t.nnz = (es.filter (fun e => decide (tileOf m n nty ntx e = (i, j)))).length ∧
  (allEnts t.np P).Perm ((es.filter (fun e => decide (tileOf m n nty ntx e = (i, j)))).map
    (localOf (bnd m nty i) (bnd n ntx j)))

theorem TileHolds.congr {m n nty ntx i j : Nat} {es es' : List (Edge E)} {t : Tile E} {P : Nat → List (Col E)}
    (h : TileHolds m n nty ntx i j es t P)
    (hp : (es.filter (fun e => decide (tileOf m n nty ntx e = (i, j)))).Perm
      (es'.filter (fun e => decide (tileOf m n nty ntx e = (i, j))))) :
    TileHolds m n nty ntx i j es' t P :=
  ⟨h.1, h.2.1, h.2.2.1, by rw [h.2.2.2.1, hp.length_eq], h.2.2.2.2.trans (hp.map _)⟩

theorem makeTile_spec {M : RMat E} {srt : Sorts E} (hs : srt.OK) (g : Nat → Nat → TileFresh E) {threads : Nat}
    (ht : 0 < threads) (hy : 0 < M.nty) (hx : 0 < M.ntx) {es : List (Edge E)}
    (hin : ∀ e ∈ es, InMat M.m M.n e) {L : List (Edge E × Nat)}
    (hperm : L.Perm (es.map (fun e => (e, (tileOf M.m M.n M.nty M.ntx e).1 + (tileOf M.m M.n M.nty M.ntx e).2 * M.nty))))
    (hL : L.Pairwise (fun a b => a.2 ≤ b.2)) {i j : Nat} (hi : i < M.nty) (hj : j < M.ntx) :
    ∃ t P, makeTile M srt g threads (L.map (·.1)) (L.map (·.2)) i j = some t ∧
      TileHolds M.m M.n M.nty M.ntx i j es t P := by
  have hcell : ((L.filter (fun a => decide (a.2 = i + j * M.nty))).map (·.1)).Perm
      (es.filter (fun e => decide (tileOf M.m M.n M.nty M.ntx e = (i, j)))) := by
    refine ((hperm.filter _).map _).trans ?_
    rw [filter_map_pair]
    rw [show es.filter (fun e => decide ((tileOf M.m M.n M.nty M.ntx e).1 + (tileOf M.m M.n M.nty M.ntx e).2 * M.nty =
        i + j * M.nty)) = es.filter (fun e => decide (tileOf M.m M.n M.nty M.ntx e = (i, j))) from ?_]
    apply List.filter_congr
    intro e he
    have := tileKey_inj (j := (tileOf M.m M.n M.nty M.ntx e).2) (j' := j) (tileOf_spec hy hx (hin e he)).2.1 hi
    rw [Bool.eq_iff_iff]
    simp only [decide_eq_true_eq, Prod.ext_iff]
    exact this
  have hA := pairwise_map_snd hL
  obtain ⟨s, hs1, hs2⟩ := leftBorder_below hA (i + j * M.nty)
  obtain ⟨e, he1, he2⟩ := rightBorder_below hA (i + j * M.nty)
  unfold makeTile
  rw [startIds_get (by omega), startIds_get (by omega), startIds_get (by omega), startIds_get (by omega)]
  simp only [Option.bind_eq_bind, Option.bind_some]
  rw [hs1, he1]
  simp only [Option.bind_some]
  rcases hs2 with ⟨h1, h2⟩ | ⟨h1, h2⟩
  · have h3 : es.filter (fun e => decide (tileOf M.m M.n M.nty M.ntx e = (i, j))) = [] := by
      rw [← List.length_eq_zero_iff, ← hcell.length_eq, List.length_map, List.length_eq_zero_iff,
        List.filter_eq_nil_iff]
      intro a ha hk
      simp at hk
      apply h2
      rw [← hk]
      exact List.mem_map.mpr ⟨a, ha, rfl⟩
    rw [h1]
    refine ⟨_, fun _ => [], rfl, Tile.empty_rep _ _ _ _ _, rfl, rfl, ?_, ?_⟩
    · rw [h3]; rfl
    · rw [h3]; exact List.Perm.refl _
  · rcases he2 with ⟨_, h4⟩ | ⟨h4, h5, _⟩
    · exact absurd h2 h4
    have hlt : below (L.map (·.2)) (i + j * M.nty) < below (L.map (·.2)) (i + j * M.nty + 1) := by
      rw [List.mem_map] at h2
      obtain ⟨a, ha, hk⟩ := h2
      have hsl := slice_below hL (i + j * M.nty)
      have hm := below_mono (L.map (·.2)) (show i + j * M.nty ≤ i + j * M.nty + 1 by omega)
      rcases Nat.eq_or_lt_of_le hm with heq | hlt
      · rw [← heq, Nat.sub_self] at hsl
        unfold sliceOf at hsl
        rw [if_pos (by rw [Nat.add_zero, List.length_map, ← List.length_map (f := fun a : Edge E × Nat => a.2) (as := L)]; exact below_le _ _),
          List.take_zero] at hsl
        have : a.1 ∈ (L.filter (fun a => decide (a.2 = i + j * M.nty))).map (·.1) :=
          List.mem_map.mpr ⟨a, List.mem_filter.mpr ⟨ha, by simpa using hk⟩, rfl⟩
        rw [← Option.some.inj hsl] at this
        exact absurd this (by simp)
      · exact hlt
    rw [if_pos (by omega : s ≠ -1 ∧ e ≠ -1), if_neg (by omega)]
    have e1 : s.toNat = below (L.map (·.2)) (i + j * M.nty) := by omega
    have e2 : (e + 1 - s).toNat = below (L.map (·.2)) (i + j * M.nty + 1) - below (L.map (·.2)) (i + j * M.nty) := by omega
    rw [e1, e2, slice_below hL]
    simp only [Option.bind_some]
    obtain ⟨t, P, b1, b2, b3, b4, b5, b6⟩ := Tile.build_spec (g i j) ht (hs.dcsc M.myrank i j)
      (edges := (L.filter (fun a => decide (a.2 = i + j * M.nty))).map (·.1))
      (m := bnd M.m M.nty (i + 1) - bnd M.m M.nty i) (n := bnd M.n M.ntx (j + 1) - bnd M.n M.ntx j)
      (rs := bnd M.m M.nty i) (cs := bnd M.n M.ntx j) (by
        intro e he
        have := hcell.mem_iff.mp he
        rw [List.mem_filter] at this
        exact tileOf_inTile hy hx (hin e this.1) (by simpa using this.2))
    exact ⟨t, P, b1, b2, b3, b4, by rw [b5, hcell.length_eq], b6.trans (hcell.map _)⟩

/-- **Second half of `ingestEdgelist`.** -/
theorem ingestLocal_spec {M : RMat E} {srt : Sorts E} (hs : srt.OK) (g : Nat → Nat → TileFresh E) {threads : Nat}
    (ht : 0 < threads) (hy : 0 < M.nty) (hx : 0 < M.ntx) {ow : Nat → Nat → Nat}
    (how : M.node = fun i j => some (ow i j)) (hnull : M.tiles = fun _ _ => none) {es : List (Edge E)}
    (hin : ∀ e ∈ es, InMat M.m M.n e) :
    ∃ T, ingestLocal M srt g threads es = some { M with tiles := T } ∧
      ∀ i j, if i < M.nty ∧ j < M.ntx ∧ ow i j = M.myrank then
        ∃ t P, T i j = some t ∧ TileHolds M.m M.n M.nty M.ntx i j es t P
      else T i j = none := by
  unfold ingestLocal
  rw [mapM_some (g := fun e => (e, (tileOf M.m M.n M.nty M.ntx e).1 + (tileOf M.m M.n M.nty M.ntx e).2 * M.nty)) (by
    intro e he
    rw [(tileOf_spec hy hx (hin e he)).1]; rfl)]
  simp only [Option.bind_eq_bind, Option.bind_some]
  obtain ⟨hp, hL⟩ := hs.tile M.myrank
    (es.map (fun e => (e, (tileOf M.m M.n M.nty M.ntx e).1 + (tileOf M.m M.n M.nty M.ntx e).2 * M.nty)))
  have hL := sorted_keys hL
  obtain ⟨L, hLd⟩ : ∃ L, L = srt.tile M.myrank
    (es.map (fun e => (e, (tileOf M.m M.n M.nty M.ntx e).1 + (tileOf M.m M.n M.nty M.ntx e).2 * M.nty))) := ⟨_, rfl⟩
  rw [← hLd] at hp hL ⊢
  let Good : Nat → Nat → Option (Tile E) → Prop := fun i j x =>
    if ow i j = M.myrank then ∃ t P, x = some t ∧ TileHolds M.m M.n M.nty M.ntx i j es t P else x = none
  obtain ⟨M', h1, T, h2, h3, h4⟩ := forLoop_inv (lo := 0) (hi := M.ntx) (s := M)
    (body := fun j M' => forLoop 0 M.nty M' (fun i M' => (M.node i j).bind fun o =>
      if o = M.myrank then
        (makeTile M srt g threads (L.map (·.1)) (L.map (·.2)) i j).bind fun t =>
        some { M' with tiles := fun a b => if a = i ∧ b = j then some t else M'.tiles a b }
      else some M'))
    (fun j M' => ∃ T, M' = { M with tiles := T } ∧
      (∀ a b, a < M.nty → b < j → Good a b (T a b)) ∧ (∀ a b, ¬ (a < M.nty ∧ b < j) → T a b = none))
    (Nat.zero_le _) ⟨fun _ _ => none, by rw [← hnull], by intro a b _ h; omega, by intros; rfl⟩ (by
      rintro j M' _ hj ⟨T, rfl, g1, g2⟩
      obtain ⟨M'', k1, T', k2, k3, k4⟩ := forLoop_inv (lo := 0) (hi := M.nty) (s := { M with tiles := T })
        (body := fun i M' => (M.node i j).bind fun o =>
          if o = M.myrank then
            (makeTile M srt g threads (L.map (·.1)) (L.map (·.2)) i j).bind fun t =>
            some { M' with tiles := fun a b => if a = i ∧ b = j then some t else M'.tiles a b }
          else some M')
        (fun i M' => ∃ T, M' = { M with tiles := T } ∧
          (∀ a b, a < M.nty → (b < j ∨ (b = j ∧ a < i)) → Good a b (T a b)) ∧
          (∀ a b, ¬ (a < M.nty ∧ (b < j ∨ (b = j ∧ a < i))) → T a b = none))
        (Nat.zero_le _) ⟨T, rfl, by intro a b ha hb; exact g1 a b ha (by omega),
          by intro a b hab; exact g2 a b (by omega)⟩ (by
          rintro i M' _ hi ⟨T, rfl, g1, g2⟩
          rw [how]
          simp only [Option.bind_some]
          by_cases ho : ow i j = M.myrank
          · rw [if_pos ho]
            obtain ⟨t, P, t1, t2⟩ := makeTile_spec hs g ht hy hx hin hp hL hi hj
            rw [t1]
            simp only [Option.bind_some]
            refine ⟨_, rfl, fun a b => if a = i ∧ b = j then some t else T a b, rfl, ?_, ?_⟩
            · intro a b ha hb
              by_cases hab : a = i ∧ b = j
              · show Good a b (if a = i ∧ b = j then some t else T a b)
                rw [if_pos hab, hab.1, hab.2]
                show (if ow i j = M.myrank then _ else _)
                rw [if_pos ho]
                exact ⟨t, P, rfl, t2⟩
              · show Good a b (if a = i ∧ b = j then some t else T a b)
                rw [if_neg hab]
                exact g1 a b ha (by omega)
            · intro a b hab
              show (if a = i ∧ b = j then some t else T a b) = none
              rw [if_neg (by omega)]
              exact g2 a b (by omega)
          · rw [if_neg ho]
            refine ⟨_, rfl, T, rfl, ?_, ?_⟩
            · intro a b ha hb
              by_cases hab : a = i ∧ b = j
              · have h0 := g2 a b (by omega)
                rw [h0, hab.1, hab.2]
                show (if ow i j = M.myrank then _ else _)
                rw [if_neg ho]
              · exact g1 a b ha (by omega)
            · intro a b hab
              exact g2 a b (by omega))
      exact ⟨M'', k1, T', k2, fun a b ha hb => k3 a b ha (by omega), fun a b hab => k4 a b (by omega)⟩)
  refine ⟨T, by rw [h1, h2], ?_⟩
  intro i j
  by_cases hij : i < M.nty ∧ j < M.ntx
  · have hg := h3 i j hij.1 hij.2
    by_cases ho : ow i j = M.myrank
    · rw [if_pos ⟨hij.1, hij.2, ho⟩]
      have : Good i j (T i j) := hg
      simp only [Good] at this
      rw [if_pos ho] at this
      exact this
    · rw [if_neg (by intro h; exact ho h.2.2)]
      have : Good i j (T i j) := hg
      simp only [Good] at this
      rw [if_neg ho] at this
      exact this
  · rw [if_neg (by intro h; exact hij ⟨h.1, h.2.1⟩)]
    exact h4 i j hij

/-- The local part of a distributed matrix with tiles `T`, tile `(i, j)` on rank `ow i j`. -/
def matOf (m n ntx nty nrank : Nat) (ow : Nat → Nat → Nat) (T : Nat → Nat → Tile E) (r : Nat) : RMat E :=
  { m := m, n := n, ntx := ntx, nty := nty, nrank := nrank, myrank := r,
    node := fun i j => some (ow i j),
    tiles := fun i j => if i < nty ∧ j < ntx ∧ ow i j = r then some (T i j) else none }

/-- The distributed matrix `D` consists of the tiles `T`, represented by `P`, and holds the edges
`all`. -/
structure DMat.Rep (D : DMat E) (m n ntx nty nrank : Nat) (ow : Nat → Nat → Nat) (T : Nat → Nat → Tile E)
    (P : Nat → Nat → Nat → List (Col E)) (all : List (Edge E)) : Prop where
  mat : D = (List.range nrank).map (matOf m n ntx nty nrank ow T)
  inMat : ∀ e ∈ all, InMat m n e
  tile : ∀ i j, i < nty → j < ntx → TileHolds m n nty ntx i j all (T i j) (P i j)

theorem DMat.Rep.congr {D : DMat E} {m n ntx nty nrank : Nat} {ow : Nat → Nat → Nat} {T : Nat → Nat → Tile E}
    {P : Nat → Nat → Nat → List (Col E)} {all all' : List (Edge E)}
    (h : D.Rep m n ntx nty nrank ow T P all) (hp : all.Perm all') : D.Rep m n ntx nty nrank ow T P all' :=
  ⟨h.mat, fun e he => h.inMat e (hp.mem_iff.mpr he), fun i j hi hj => (h.tile i j hi hj).congr (hp.filter _)⟩

theorem mapM_map {α β γ : Type} {l : List α} {f : α → β} {g : β → Option γ} :
    (l.map f).mapM g = l.mapM (fun a => g (f a)) := by
  induction l with
  | nil => rfl
  | cons a l ih => rw [List.map_cons, List.mapM_cons, List.mapM_cons, ih]

theorem flatten_filter {α : Type} (ls : List (List α)) (p : α → Bool) :
    (ls.map (fun l => l.filter p)).flatten = ls.flatten.filter p := by
  induction ls with
  | nil => rfl
  | cons l ls ih => rw [List.map_cons, List.flatten_cons, List.flatten_cons, List.filter_append, ih]

theorem flatten_perm {α : Type} {ls ls' : List (List α)} (hl : ls.length = ls'.length)
    (h : ∀ i (h1 : i < ls.length) (h2 : i < ls'.length), (ls[i]).Perm (ls'[i])) : ls.flatten.Perm ls'.flatten := by
  induction ls generalizing ls' with
  | nil =>
    cases ls' with
    | nil => exact List.Perm.refl _
    | cons a l => simp at hl
  | cons a l ih =>
    cases ls' with
    | nil => simp at hl
    | cons a' l' =>
      rw [List.flatten_cons, List.flatten_cons]
      refine List.Perm.append (h 0 (by simp) (by simp)) (ih (by simpa using hl) ?_)
      intro i h1 h2
      have := h (i + 1) (by simpa using h1) (by simpa using h2)
      simpa using this

theorem mem_flatten_get {α : Type} {ls : List (List α)} {i : Nat} (h : i < ls.length) {a : α} (ha : a ∈ ls[i]) :
    a ∈ ls.flatten := List.mem_flatten.mpr ⟨_, List.getElem_mem h, ha⟩

/-- The local part of a matrix after allocation. -/
def matEmpty (m n ntx nty nrank : Nat) (ow : Nat → Nat → Nat) (r : Nat) : RMat E :=
  { m := m, n := n, ntx := ntx, nty := nty, nrank := nrank, myrank := r,
    node := fun i j => some (ow i j), tiles := fun _ _ => none }

/-- Collecting the results of `ingestLocal` of all ranks. -/
theorem collect_ingest {m n ntx nty nrank : Nat} {ow : Nat → Nat → Nat} {srt : Sorts E} (hs : srt.OK)
    (g : Nat → Nat → Nat → TileFresh E) {threads : Nat} (ht : 0 < threads) (hy : 0 < nty) (hx : 0 < ntx)
    (how : ∀ i j, ow i j < nrank) {all : List (Edge E)} (hin : ∀ e ∈ all, InMat m n e)
    {recv : Nat → List (Edge E)}
    (hrecv : ∀ r, r < nrank → (recv r).Perm (all.filter (fun e => decide (ow (tileOf m n nty ntx e).1 (tileOf m n nty ntx e).2 = r)))) :
    ∃ D T P, (List.range nrank).mapM (fun r => ingestLocal
        (matEmpty m n ntx nty nrank ow r) srt (g r) threads (recv r)) = some D ∧
      DMat.Rep D m n ntx nty nrank ow T P all := by
  have h1 : ∀ r, ∃ T : Nat → Nat → Option (Tile E), r < nrank →
      ingestLocal (E := E) (matEmpty m n ntx nty nrank ow r) srt (g r) threads (recv r) =
        some { (matEmpty m n ntx nty nrank ow r : RMat E) with tiles := T } ∧
      ∀ i j, if i < nty ∧ j < ntx ∧ ow i j = r then
        ∃ t P, T i j = some t ∧ TileHolds m n nty ntx i j (recv r) t P else T i j = none := by
    intro r
    by_cases hr : r < nrank
    · obtain ⟨T, a1, a2⟩ := ingestLocal_spec
        (M := matEmpty m n ntx nty nrank ow r) hs (g r) ht hy hx rfl rfl
        (es := recv r) (by
          intro e he
          have := (hrecv r hr).mem_iff.mp he
          exact hin e (List.mem_filter.mp this).1)
      exact ⟨T, fun _ => ⟨a1, a2⟩⟩
    · exact ⟨fun _ _ => none, fun h => absurd h hr⟩
  obtain ⟨TT, hTT⟩ := Classical.skolem.mp h1
  have h2 : ∀ x : Nat × Nat, ∃ y : Tile E × (Nat → List (Col E)), x.1 < nty → x.2 < ntx →
      TT (ow x.1 x.2) x.1 x.2 = some y.1 ∧ TileHolds m n nty ntx x.1 x.2 all y.1 y.2 := by
    rintro ⟨i, j⟩
    by_cases hij : i < nty ∧ j < ntx
    · have := (hTT (ow i j) (how i j)).2 i j
      rw [if_pos ⟨hij.1, hij.2, rfl⟩] at this
      obtain ⟨t, P, t1, t2⟩ := this
      refine ⟨(t, P), fun _ _ => ⟨t1, t2.congr ?_⟩⟩
      refine ((hrecv (ow i j) (how i j)).filter _).trans ?_
      rw [List.filter_filter]
      rw [List.filter_congr (q := fun e => decide (tileOf m n nty ntx e = (i, j))) (by
        intro e _
        rw [Bool.eq_iff_iff]
        simp
        intro he
        rw [he])]
    · exact ⟨(Tile.empty (g 0 0 0) 0 0 0, fun _ => []), fun a b => absurd ⟨a, b⟩ hij⟩
  obtain ⟨F, hF⟩ := Classical.skolem.mp h2
  refine ⟨_, fun i j => (F (i, j)).1, fun i j => (F (i, j)).2,
    mapM_some (g := matOf m n ntx nty nrank ow (fun i j => (F (i, j)).1)) ?_, rfl, hin, ?_⟩
  · intro r hr
    rw [List.mem_range] at hr
    rw [(hTT r hr).1]
    unfold matOf matEmpty
    simp only [Option.some.injEq, RMat.mk.injEq, true_and]
    funext i j
    have := (hTT r hr).2 i j
    by_cases hc : i < nty ∧ j < ntx ∧ ow i j = r
    · rw [if_pos hc]
      rw [← hc.2.2]
      exact (hF (i, j) hc.1 hc.2.1).1
    · rw [if_neg hc] at this ⊢
      exact this
  · intro i j hi hj
    exact (hF (i, j) hi hj).2

/-- **`SpMat(edgelist, ntx, nty, pfn)`** on all ranks. -/
theorem DMat.ofEdges_spec {m n ntx nty nrank : Nat} {pfn : Nat → Nat → Nat → Option Nat} {ow : Nat → Nat → Nat}
    {srt : Sorts E} (hs : srt.OK) (g : Nat → Nat → Nat → TileFresh E) {threads : Nat} (ht : 0 < threads)
    (hy : 0 < nty) (hx : 0 < ntx) (hr : 0 < nrank) (hpfn : ∀ i j, pfn j i nrank = some (ow i j))
    (how : ∀ i j, ow i j < nrank) {blobs : List (List (Edge E))} (hb : blobs.length = nrank)
    (hin : ∀ e ∈ blobs.flatten, InMat m n e) :
    ∃ out D T P, DMat.ofEdges m n ntx nty nrank pfn srt g threads blobs = some (out, D) ∧
      out.length = nrank ∧
      (∀ r (h1 : r < out.length) (h2 : r < blobs.length), (out[r]).Perm (blobs[r])) ∧
      (nrank = 1 → out = blobs) ∧
      DMat.Rep D m n ntx nty nrank ow T P blobs.flatten := by
  unfold DMat.ofEdges
  let Mr : Nat → RMat E := fun r => matEmpty m n ntx nty nrank ow r
  have halloc : (List.range nrank).mapM (fun r => RMat.alloc (E := E) m n ntx nty nrank r pfn) =
      some ((List.range nrank).map Mr) := by
    apply mapM_some
    intro r _
    unfold RMat.alloc
    rw [if_neg (by omega)]
    rw [mapM_some (g := fun j => (List.range nty).map (fun i => ow i j)) (by
      intro j _
      exact mapM_some (fun i _ => hpfn i j))]
    simp only [hpfn]
    rfl
  rw [halloc]
  simp only [Option.bind_eq_bind, Option.bind_some]
  by_cases h1 : nrank = 1
  · rw [if_pos h1]
    obtain ⟨b, rfl⟩ : ∃ b, blobs = [b] := by
      match blobs, hb with
      | [], h => simp at h; omega
      | [b], _ => exact ⟨b, rfl⟩
      | b :: c :: l, h => simp at h; omega
    obtain ⟨D, T, P, d1, d2⟩ := collect_ingest (recv := fun _ => b) hs g ht hy hx how hin (by
      intro r hr
      rw [List.filter_eq_self.mpr]
      · simp
      · intro e _
        have := how (tileOf m n nty ntx e).1 (tileOf m n nty ntx e).2
        simp; omega)
    subst h1
    have : ((List.range 1).map Mr).zip [b] = (List.range 1).map (fun r => (Mr r, b)) := rfl
    rw [this, mapM_map]
    rw [show (fun r => ingestLocal (Mr r, b).1 srt (g (Mr r, b).1.myrank) threads (Mr r, b).2) =
      (fun r => ingestLocal (Mr r) srt (g r) threads b) from rfl]
    rw [d1]
    exact ⟨[b], D, T, P, rfl, rfl, fun r _ _ => List.Perm.refl _, fun _ => rfl, d2⟩
  · rw [if_neg h1]
    -- the sorted lists
    let key : Edge E → Nat := fun e => ow (tileOf m n nty ntx e).1 (tileOf m n nty ntx e).2
    let L : Nat → List (Edge E) → List (Edge E × Nat) := fun r es => srt.owner r (es.map (fun e => (e, key e)))
    have hL : ∀ r es, (L r es).Perm (es.map (fun e => (e, key e))) ∧ (L r es).Pairwise (fun a b => a.2 ≤ b.2) :=
      fun r es => ⟨(hs.owner r _).1, sorted_keys (hs.owner r _).2⟩
    have hout : (((List.range nrank).map Mr).zip blobs).mapM (fun Mb => shuffleOut Mb.1 srt Mb.2) =
        some ((((List.range nrank).map Mr).zip blobs).map (fun Mb =>
          ((L Mb.1.myrank Mb.2).map (·.1), (List.range nrank).map (fun i =>
            (below ((L Mb.1.myrank Mb.2).map (·.2)) i,
             below ((L Mb.1.myrank Mb.2).map (·.2)) (i + 1) - below ((L Mb.1.myrank Mb.2).map (·.2)) i))))) := by
      apply mapM_some
      rintro ⟨M, es⟩ hM
      obtain ⟨i, hi, he⟩ := List.getElem_of_mem hM
      rw [List.getElem_zip] at he
      simp only [Prod.mk.injEq] at he
      obtain ⟨he1, he2⟩ := he
      have hM : M = Mr i := by rw [← he1]; simp
      have hes : ∀ e ∈ es, InMat m n e := by
        intro e hee
        rw [← he2] at hee
        exact hin e (mem_flatten_get _ hee)
      subst hM
      unfold shuffleOut
      rw [mapM_some (g := fun e => (e, key e)) (by
        intro e hee
        simp only [Mr, matEmpty]
        rw [(tileOf_spec hy hx (hes e hee)).1]
        rfl)]
      simp only [Option.bind_eq_bind, Option.bind_some]
      rw [show srt.owner (Mr i).myrank (es.map (fun e => (e, key e))) = L i es from rfl]
      rw [sendPlan_spec (pairwise_map_snd (hL i es).2)]
      rfl
    rw [hout]
    simp only [Option.bind_some]
    rw [mapM_map]
    -- what each rank receives
    let Z := ((List.range nrank).map Mr).zip blobs
    let recv : Nat → List (Edge E) := fun r =>
      (Z.map (fun Mb => ((L Mb.1.myrank Mb.2).filter (fun a => decide (a.2 = r))).map (·.1))).flatten
    have hZlen : Z.length = nrank := by simp [Z, hb]
    have hZ : ∀ i (h : i < Z.length) (h' : i < blobs.length), Z[i] = (Mr i, blobs[i]) := by
      intro i h h'
      simp [Z]
    have hparts : ∀ r, r < nrank →
        (Z.map (fun Mb => ((L Mb.1.myrank Mb.2).map (·.1), (List.range nrank).map (fun i =>
            (below ((L Mb.1.myrank Mb.2).map (·.2)) i,
             below ((L Mb.1.myrank Mb.2).map (·.2)) (i + 1) - below ((L Mb.1.myrank Mb.2).map (·.2)) i))))).mapM
          (fun o => (o.2[r]?).bind fun pc => sliceOf o.1 pc.1 pc.2) =
        some (Z.map (fun Mb => ((L Mb.1.myrank Mb.2).filter (fun a => decide (a.2 = r))).map (·.1))) := by
      intro r hr
      rw [mapM_map]
      apply mapM_some
      intro Mb _
      simp only [List.getElem?_map, List.getElem?_range hr, Option.map_some, Option.bind_some]
      exact slice_below (hL _ _).2 r
    obtain ⟨D, T, P, d1, d2⟩ := collect_ingest (recv := recv) hs g ht hy hx how hin (by
      intro r hr
      rw [← flatten_filter]
      apply flatten_perm
      · simp [hZlen, hb]
      · intro i h1 h2
        rw [List.getElem_map, List.getElem_map]
        rw [hZ i (by simpa using h1) (by simpa using h2)]
        refine (((hL i _).1.filter _).map _).trans ?_
        rw [filter_map_pair])
    have hD : (List.range nrank).mapM (fun r =>
        ((Z.map (fun Mb => ((L Mb.1.myrank Mb.2).map (·.1), (List.range nrank).map (fun i =>
            (below ((L Mb.1.myrank Mb.2).map (·.2)) i,
             below ((L Mb.1.myrank Mb.2).map (·.2)) (i + 1) - below ((L Mb.1.myrank Mb.2).map (·.2)) i))))).mapM
          (fun o => (o.2[(Mr r).myrank]?).bind fun pc => sliceOf o.1 pc.1 pc.2)).bind
          (fun parts => ingestLocal (Mr r) srt (g (Mr r).myrank) threads parts.flatten)) =
        some D := by
      rw [← d1]
      have hm : ∀ {γ : Type} (l : List Nat) (f h : Nat → Option γ), (∀ b ∈ l, f b = h b) → l.mapM f = l.mapM h := by
        intro γ l f h hfh
        induction l with
        | nil => rfl
        | cons a l ih =>
          rw [List.mapM_cons, List.mapM_cons, hfh a List.mem_cons_self,
            ih (fun b hb => hfh b (List.mem_cons_of_mem _ hb))]
      apply hm
      intro r hr
      rw [List.mem_range] at hr
      show (List.mapM (fun o : List (Edge E) × List (Nat × Nat) => (o.2[r]?).bind fun pc => sliceOf o.1 pc.1 pc.2) _).bind _ = _
      rw [hparts r hr]
      rfl
    rw [hD]
    refine ⟨_, D, T, P, rfl, ?_, ?_, fun h => absurd h h1, d2⟩
    · simp only [List.length_map]; exact hZlen
    · intro r h1 h2
      simp only [List.length_map] at h1
      simp only [List.getElem_map]
      have := hZ r h1 h2
      simp only [Z] at this
      rw [this]
      refine ((hL r _).1.map _).trans ?_
      rw [List.map_map]
      have : ((fun x : Edge E × Nat => x.1) ∘ fun e => (e, key e)) = id := rfl
      rw [this, List.map_id]

end GraphMat

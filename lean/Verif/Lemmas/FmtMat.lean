import Verif.Model.FmtMat
import Verif.Lemmas.FmtHybrid
import Verif.Lemmas.SpMSpV

/-! Distributed matrices with tiles of any format: building them, reading them, transposing them, multiplying with them. -/
namespace GraphMat

variable {E Til T U V σ κ : Type}

/-- What the proofs need of a tile type: `Is t m n l` says that `t` is an `m` x `n` tile with the entries `l`; `ok` are the lists of
edges for which the constructor works. -/
structure TileFmt.Laws (F : TileFmt E Til) (ok : Nat → Nat → Nat → List (Edge E) → Prop)
    (Is : Til → Nat → Nat → List (Nat × Nat × E) → Prop) : Prop where
  perm : ∀ {r i j es es'}, es.Perm es' → ok r i j es → ok r i j es'
  empty : ∀ r i j m n, Is (F.empty r i j m n) m n []
  build : ∀ r i j es m n rs cs, es ≠ [] → (∀ e ∈ es, InTile m n rs cs e) → ok r i j es →
    ∃ t l, F.build r i j es m n rs cs = some t ∧ Is t m n l ∧ l.Perm (es.map (localOf rs cs))
  nnz : ∀ {t m n l}, Is t m n l → F.nnz t = l.length
  getEdges : ∀ {t m n l}, Is t m n l → ∀ r i j rs cs, F.getEdges r i j t rs cs = some (l.map (unlocal rs cs))

/-- The sorts sort. -/
structure MatSorts.OK (s : MatSorts E) : Prop where
  owner : ∀ r, SortsBy compareTileId (s.owner r)
  tile : ∀ r, SortsBy compareTileId (s.tile r)

variable {F : TileFmt E Til} {ok : Nat → Nat → Nat → List (Edge E) → Prop} {Is : Til → Nat → Nat → List (Nat × Nat × E) → Prop}

/-- What a tile of a rank must be after `ingestEdgelist`. -/
def FTile (Is : Til → Nat → Nat → List (Nat × Nat × E) → Prop) (m n nty ntx i j : Nat) (es : List (Edge E)) (t : Til)
    (l : List (Nat × Nat × E)) : Prop :=
  Is t (bnd m nty (i + 1) - bnd m nty i) (bnd n ntx (j + 1) - bnd n ntx j) l ∧
  l.Perm ((es.filter (fun e => decide (tileOf m n nty ntx e = (i, j)))).map (localOf (bnd m nty i) (bnd n ntx j)))

theorem FTile.congr {m n nty ntx i j : Nat} {es es' : List (Edge E)} {t : Til} {l : List (Nat × Nat × E)}
    (h : FTile Is m n nty ntx i j es t l)
    (hp : (es.filter (fun e => decide (tileOf m n nty ntx e = (i, j)))).Perm
      (es'.filter (fun e => decide (tileOf m n nty ntx e = (i, j))))) :
    FTile Is m n nty ntx i j es' t l :=
  ⟨h.1, h.2.trans (hp.map _)⟩

theorem FMat.makeTile_spec {M : FMat Til} (hF : F.Laws ok Is)
    (hy : 0 < M.nty) (hx : 0 < M.ntx) {es : List (Edge E)}
    (hin : ∀ e ∈ es, InMat M.m M.n e) {L : List (Edge E × Nat)}
    (hperm : L.Perm (es.map (fun e => (e, (tileOf M.m M.n M.nty M.ntx e).1 + (tileOf M.m M.n M.nty M.ntx e).2 * M.nty))))
    (hL : L.Pairwise (fun a b => a.2 ≤ b.2)) {i j : Nat} (hi : i < M.nty) (hj : j < M.ntx)
    (hok : ok M.myrank i j (es.filter (fun e => decide (tileOf M.m M.n M.nty M.ntx e = (i, j))))) :
    ∃ t l, FMat.makeTile F M (L.map (·.1)) (L.map (·.2)) i j = some t ∧
      FTile Is M.m M.n M.nty M.ntx i j es t l := by
  have hcell : ((L.filter (fun a => decide (a.2 = i + j * M.nty))).map (·.1)).Perm
      (es.filter (fun e => decide (tileOf M.m M.n M.nty M.ntx e = (i, j)))) := by
    refine ((hperm.filter _).map _).trans ?_
    rw [filter_map_pair]
    rw [show es.filter (fun e => decide ((tileOf M.m M.n M.nty M.ntx e).1 + (tileOf M.m M.n M.nty M.ntx e).2 * M.nty =
        i + j * M.nty)) = es.filter (fun e => decide (tileOf M.m M.n M.nty M.ntx e = (i, j))) from ?_]
    apply List.filter_congr
    intro e he
    have := tileKey_inj (j := (tileOf M.m M.n M.nty M.ntx e).2) (j' := j) (tileOf_spec hy hx (hin e he)).2.1 hi
    rw [Bool.eq_iff_iff]
    simp only [decide_eq_true_eq, Prod.ext_iff]
    exact this
  have hA := pairwise_map_snd hL
  obtain ⟨s, hs1, hs2⟩ := leftBorder_below hA (i + j * M.nty)
  obtain ⟨e, he1, he2⟩ := rightBorder_below hA (i + j * M.nty)
  unfold FMat.makeTile
  rw [startIds_get (by omega), startIds_get (by omega), startIds_get (by omega), startIds_get (by omega)]
  simp only [Option.bind_eq_bind, Option.bind_some]
  rw [hs1, he1]
  simp only [Option.bind_some]
  rcases hs2 with ⟨h1, h2⟩ | ⟨h1, h2⟩
  · have h3 : es.filter (fun e => decide (tileOf M.m M.n M.nty M.ntx e = (i, j))) = [] := by
      rw [← List.length_eq_zero_iff, ← hcell.length_eq, List.length_map, List.length_eq_zero_iff,
        List.filter_eq_nil_iff]
      intro a ha hk
      simp at hk
      apply h2
      rw [← hk]
      exact List.mem_map.mpr ⟨a, ha, rfl⟩
    rw [h1]
    refine ⟨_, [], rfl, hF.empty _ _ _ _ _, ?_⟩
    rw [h3]; exact List.Perm.refl _
  · rcases he2 with ⟨_, h4⟩ | ⟨h4, h5, _⟩
    · exact absurd h2 h4
    have hlt : below (L.map (·.2)) (i + j * M.nty) < below (L.map (·.2)) (i + j * M.nty + 1) := by
      rw [List.mem_map] at h2
      obtain ⟨a, ha, hk⟩ := h2
      have hsl := slice_below hL (i + j * M.nty)
      have hm := below_mono (L.map (·.2)) (show i + j * M.nty ≤ i + j * M.nty + 1 by omega)
      rcases Nat.eq_or_lt_of_le hm with heq | hlt
      · rw [← heq, Nat.sub_self] at hsl
        unfold sliceOf at hsl
        rw [if_pos (by rw [Nat.add_zero, List.length_map, ← List.length_map (f := fun a : Edge E × Nat => a.2) (as := L)]; exact below_le _ _),
          List.take_zero] at hsl
        have : a.1 ∈ (L.filter (fun a => decide (a.2 = i + j * M.nty))).map (·.1) :=
          List.mem_map.mpr ⟨a, List.mem_filter.mpr ⟨ha, by simpa using hk⟩, rfl⟩
        rw [← Option.some.inj hsl] at this
        exact absurd this (by simp)
      · exact hlt
    rw [if_pos (by omega : s ≠ -1 ∧ e ≠ -1), if_neg (by omega)]
    have e1 : s.toNat = below (L.map (·.2)) (i + j * M.nty) := by omega
    have e2 : (e + 1 - s).toNat = below (L.map (·.2)) (i + j * M.nty + 1) - below (L.map (·.2)) (i + j * M.nty) := by omega
    rw [e1, e2, slice_below hL]
    simp only [Option.bind_some]
    obtain ⟨t, l, b1, b2, b3⟩ := hF.build M.myrank i j
      ((L.filter (fun a => decide (a.2 = i + j * M.nty))).map (·.1))
      (bnd M.m M.nty (i + 1) - bnd M.m M.nty i) (bnd M.n M.ntx (j + 1) - bnd M.n M.ntx j)
      (bnd M.m M.nty i) (bnd M.n M.ntx j) (by
        intro h0
        have hsl := slice_below hL (i + j * M.nty)
        rw [h0] at hsl
        unfold sliceOf at hsl
        split at hsl
        · have := congrArg List.length (Option.some.inj hsl)
          rw [List.length_take, List.length_drop, List.length_map, List.length_nil] at this
          have hle := below_le (L.map (·.2)) (i + j * M.nty + 1)
          rw [List.length_map] at hle
          omega
        · cases hsl) (by
        intro e he
        have := hcell.mem_iff.mp he
        rw [List.mem_filter] at this
        exact tileOf_inTile hy hx (hin e this.1) (by simpa using this.2)) (hF.perm hcell.symm hok)
    exact ⟨t, l, b1, b2, b3.trans (hcell.map _)⟩

/-- **Second half of `ingestEdgelist`.** -/
theorem FMat.ingestLocal_spec {M : FMat Til} {srt : MatSorts E} (hs : srt.OK) (hF : F.Laws ok Is)
    (hy : 0 < M.nty) (hx : 0 < M.ntx) {ow : Nat → Nat → Nat}
    (how : M.node = fun i j => some (ow i j)) (hnull : M.tiles = fun _ _ => none) {es : List (Edge E)}
    (hin : ∀ e ∈ es, InMat M.m M.n e)
    (hok : ∀ i j, i < M.nty → j < M.ntx → ow i j = M.myrank → ok M.myrank i j (es.filter (fun e => decide (tileOf M.m M.n M.nty M.ntx e = (i, j))))) :
    ∃ T, FMat.ingestLocal F M srt es = some { M with tiles := T } ∧
      ∀ i j, if i < M.nty ∧ j < M.ntx ∧ ow i j = M.myrank then
        ∃ t l, T i j = some t ∧ FTile Is M.m M.n M.nty M.ntx i j es t l
      else T i j = none := by
  unfold FMat.ingestLocal
  rw [mapM_some (g := fun e => (e, (tileOf M.m M.n M.nty M.ntx e).1 + (tileOf M.m M.n M.nty M.ntx e).2 * M.nty)) (by
    intro e he
    rw [(tileOf_spec hy hx (hin e he)).1]; rfl)]
  simp only [Option.bind_eq_bind, Option.bind_some]
  obtain ⟨hp, hL⟩ := hs.tile M.myrank
    (es.map (fun e => (e, (tileOf M.m M.n M.nty M.ntx e).1 + (tileOf M.m M.n M.nty M.ntx e).2 * M.nty)))
  have hL := sorted_keys hL
  obtain ⟨L, hLd⟩ : ∃ L, L = srt.tile M.myrank
    (es.map (fun e => (e, (tileOf M.m M.n M.nty M.ntx e).1 + (tileOf M.m M.n M.nty M.ntx e).2 * M.nty))) := ⟨_, rfl⟩
  rw [← hLd] at hp hL ⊢
  let Good : Nat → Nat → Option (Til) → Prop := fun i j x =>
    if ow i j = M.myrank then ∃ t l, x = some t ∧ FTile Is M.m M.n M.nty M.ntx i j es t l else x = none
  obtain ⟨M', h1, T, h2, h3, h4⟩ := forLoop_inv (lo := 0) (hi := M.ntx) (s := M)
    (body := fun j M' => forLoop 0 M.nty M' (fun i M' => (M.node i j).bind fun o =>
      if o = M.myrank then
        (FMat.makeTile F M (L.map (·.1)) (L.map (·.2)) i j).bind fun t =>
        some { M' with tiles := fun a b => if a = i ∧ b = j then some t else M'.tiles a b }
      else some M'))
    (fun j M' => ∃ T, M' = { M with tiles := T } ∧
      (∀ a b, a < M.nty → b < j → Good a b (T a b)) ∧ (∀ a b, ¬ (a < M.nty ∧ b < j) → T a b = none))
    (Nat.zero_le _) ⟨fun _ _ => none, by rw [← hnull], by intro a b _ h; omega, by intros; rfl⟩ (by
      rintro j M' _ hj ⟨T, rfl, g1, g2⟩
      obtain ⟨M'', k1, T', k2, k3, k4⟩ := forLoop_inv (lo := 0) (hi := M.nty) (s := { M with tiles := T })
        (body := fun i M' => (M.node i j).bind fun o =>
          if o = M.myrank then
            (FMat.makeTile F M (L.map (·.1)) (L.map (·.2)) i j).bind fun t =>
            some { M' with tiles := fun a b => if a = i ∧ b = j then some t else M'.tiles a b }
          else some M')
        (fun i M' => ∃ T, M' = { M with tiles := T } ∧
          (∀ a b, a < M.nty → (b < j ∨ (b = j ∧ a < i)) → Good a b (T a b)) ∧
          (∀ a b, ¬ (a < M.nty ∧ (b < j ∨ (b = j ∧ a < i))) → T a b = none))
        (Nat.zero_le _) ⟨T, rfl, by intro a b ha hb; exact g1 a b ha (by omega),
          by intro a b hab; exact g2 a b (by omega)⟩ (by
          rintro i M' _ hi ⟨T, rfl, g1, g2⟩
          rw [how]
          simp only [Option.bind_some]
          by_cases ho : ow i j = M.myrank
          · rw [if_pos ho]
            obtain ⟨t, l, t1, t2⟩ := FMat.makeTile_spec hF hy hx hin hp hL hi hj (hok i j hi hj ho)
            rw [t1]
            simp only [Option.bind_some]
            refine ⟨_, rfl, fun a b => if a = i ∧ b = j then some t else T a b, rfl, ?_, ?_⟩
            · intro a b ha hb
              by_cases hab : a = i ∧ b = j
              · show Good a b (if a = i ∧ b = j then some t else T a b)
                rw [if_pos hab, hab.1, hab.2]
                show (if ow i j = M.myrank then _ else _)
                rw [if_pos ho]
                exact ⟨t, l, rfl, t2⟩
              · show Good a b (if a = i ∧ b = j then some t else T a b)
                rw [if_neg hab]
                exact g1 a b ha (by omega)
            · intro a b hab
              show (if a = i ∧ b = j then some t else T a b) = none
              rw [if_neg (by omega)]
              exact g2 a b (by omega)
          · rw [if_neg ho]
            refine ⟨_, rfl, T, rfl, ?_, ?_⟩
            · intro a b ha hb
              by_cases hab : a = i ∧ b = j
              · have h0 := g2 a b (by omega)
                rw [h0, hab.1, hab.2]
                show (if ow i j = M.myrank then _ else _)
                rw [if_neg ho]
              · exact g1 a b ha (by omega)
            · intro a b hab
              exact g2 a b (by omega))
      exact ⟨M'', k1, T', k2, fun a b ha hb => k3 a b ha (by omega), fun a b hab => k4 a b (by omega)⟩)
  refine ⟨T, by rw [h1, h2], ?_⟩
  intro i j
  by_cases hij : i < M.nty ∧ j < M.ntx
  · have hg := h3 i j hij.1 hij.2
    by_cases ho : ow i j = M.myrank
    · rw [if_pos ⟨hij.1, hij.2, ho⟩]
      have : Good i j (T i j) := hg
      simp only [Good] at this
      rw [if_pos ho] at this
      exact this
    · rw [if_neg (by intro h; exact ho h.2.2)]
      have : Good i j (T i j) := hg
      simp only [Good] at this
      rw [if_neg ho] at this
      exact this
  · rw [if_neg (by intro h; exact hij ⟨h.1, h.2.1⟩)]
    exact h4 i j hij

/-- The local part of a distributed matrix with tiles `T`, tile `(i, j)` on rank `ow i j`. -/
def fmatOf (m n ntx nty nrank : Nat) (ow : Nat → Nat → Nat) (T : Nat → Nat → Til) (r : Nat) : FMat Til :=
  { m := m, n := n, ntx := ntx, nty := nty, nrank := nrank, myrank := r,
    node := fun i j => some (ow i j),
    tiles := fun i j => if i < nty ∧ j < ntx ∧ ow i j = r then some (T i j) else none }

/-- The distributed matrix `D` consists of the tiles `T`, which hold the entries `L`, and holds the edges `all`. -/
structure FMat.Rep (Is : Til → Nat → Nat → List (Nat × Nat × E) → Prop) (D : List (FMat Til)) (m n ntx nty nrank : Nat)
    (ow : Nat → Nat → Nat) (T : Nat → Nat → Til) (L : Nat → Nat → List (Nat × Nat × E)) (all : List (Edge E)) : Prop where
  mat : D = (List.range nrank).map (fmatOf m n ntx nty nrank ow T)
  inMat : ∀ e ∈ all, InMat m n e
  tile : ∀ i j, i < nty → j < ntx → FTile Is m n nty ntx i j all (T i j) (L i j)

theorem FMat.Rep.congr {D : List (FMat Til)} {m n ntx nty nrank : Nat} {ow : Nat → Nat → Nat} {T : Nat → Nat → Til}
    {L : Nat → Nat → List (Nat × Nat × E)} {all all' : List (Edge E)}
    (h : FMat.Rep Is D m n ntx nty nrank ow T L all) (hp : all.Perm all') : FMat.Rep Is D m n ntx nty nrank ow T L all' :=
  ⟨h.mat, fun e he => h.inMat e (hp.mem_iff.mpr he), fun i j hi hj => (h.tile i j hi hj).congr (hp.filter _)⟩

/-- The local part of a matrix after allocation. -/
def fmatEmpty (m n ntx nty nrank : Nat) (ow : Nat → Nat → Nat) (r : Nat) : FMat Til :=
  { m := m, n := n, ntx := ntx, nty := nty, nrank := nrank, myrank := r,
    node := fun i j => some (ow i j), tiles := fun _ _ => none }

/-- Collecting the results of `ingestLocal` of all ranks. -/
theorem FMat.collect_ingest {m n ntx nty nrank : Nat} {ow : Nat → Nat → Nat} {srt : MatSorts E} (hs : srt.OK)
    (hF : F.Laws ok Is) (hy : 0 < nty) (hx : 0 < ntx)
    (how : ∀ i j, ow i j < nrank) {all : List (Edge E)} (hin : ∀ e ∈ all, InMat m n e)
    (hok : ∀ i j, i < nty → j < ntx → ok (ow i j) i j (all.filter (fun e => decide (tileOf m n nty ntx e = (i, j)))))
    {recv : Nat → List (Edge E)}
    (hrecv : ∀ r, r < nrank → (recv r).Perm (all.filter (fun e => decide (ow (tileOf m n nty ntx e).1 (tileOf m n nty ntx e).2 = r)))) :
    ∃ D T L, (List.range nrank).mapM (fun r => FMat.ingestLocal F
        (fmatEmpty m n ntx nty nrank ow r) srt (recv r)) = some D ∧
      FMat.Rep Is D m n ntx nty nrank ow T L all := by
  have hcell : ∀ i j, i < nty → j < ntx → ((recv (ow i j)).filter (fun e => decide (tileOf m n nty ntx e = (i, j)))).Perm
      (all.filter (fun e => decide (tileOf m n nty ntx e = (i, j)))) := by
    intro i j _ _
    refine ((hrecv (ow i j) (how i j)).filter _).trans ?_
    rw [List.filter_filter]
    rw [List.filter_congr (q := fun e => decide (tileOf m n nty ntx e = (i, j))) (by
      intro e _
      rw [Bool.eq_iff_iff]
      simp
      intro he
      rw [he])]
  have h1 : ∀ r, ∃ T : Nat → Nat → Option (Til), r < nrank →
      FMat.ingestLocal F (fmatEmpty m n ntx nty nrank ow r) srt (recv r) =
        some { (fmatEmpty m n ntx nty nrank ow r : FMat Til) with tiles := T } ∧
      ∀ i j, if i < nty ∧ j < ntx ∧ ow i j = r then
        ∃ t l, T i j = some t ∧ FTile Is m n nty ntx i j (recv r) t l else T i j = none := by
    intro r
    by_cases hr : r < nrank
    · obtain ⟨T, a1, a2⟩ := FMat.ingestLocal_spec (M := fmatEmpty m n ntx nty nrank ow r) hs hF hy hx rfl rfl
        (es := recv r) (by
          intro e he
          have := (hrecv r hr).mem_iff.mp he
          exact hin e (List.mem_filter.mp this).1) (by
          intro i j hi hj ho
          have ho : ow i j = r := ho
          show ok r i j _
          rw [← ho]
          exact hF.perm (hcell i j hi hj).symm (hok i j hi hj))
      exact ⟨T, fun _ => ⟨a1, a2⟩⟩
    · exact ⟨fun _ _ => none, fun h => absurd h hr⟩
  obtain ⟨TT, hTT⟩ := Classical.skolem.mp h1
  have h2 : ∀ x : Nat × Nat, ∃ y : Til × List (Nat × Nat × E), x.1 < nty → x.2 < ntx →
      TT (ow x.1 x.2) x.1 x.2 = some y.1 ∧ FTile Is m n nty ntx x.1 x.2 all y.1 y.2 := by
    rintro ⟨i, j⟩
    by_cases hij : i < nty ∧ j < ntx
    · have := (hTT (ow i j) (how i j)).2 i j
      rw [if_pos ⟨hij.1, hij.2, rfl⟩] at this
      obtain ⟨t, l, t1, t2⟩ := this
      exact ⟨(t, l), fun _ _ => ⟨t1, t2.congr (hcell i j hij.1 hij.2)⟩⟩
    · exact ⟨(F.empty 0 0 0 0 0, []), fun a b => absurd ⟨a, b⟩ hij⟩
  obtain ⟨C, hC⟩ := Classical.skolem.mp h2
  refine ⟨_, fun i j => (C (i, j)).1, fun i j => (C (i, j)).2,
    mapM_some (g := fmatOf m n ntx nty nrank ow (fun i j => (C (i, j)).1)) ?_, rfl, hin, ?_⟩
  · intro r hr
    rw [List.mem_range] at hr
    rw [(hTT r hr).1]
    unfold fmatOf fmatEmpty
    simp only [Option.some.injEq, FMat.mk.injEq, true_and]
    funext i j
    have := (hTT r hr).2 i j
    by_cases hc : i < nty ∧ j < ntx ∧ ow i j = r
    · rw [if_pos hc]
      rw [← hc.2.2]
      exact (hC (i, j) hc.1 hc.2.1).1
    · rw [if_neg hc] at this ⊢
      exact this
  · intro i j hi hj
    exact (hC (i, j) hi hj).2

/-- **`SpMat(edgelist, ntx, nty, pfn)`** on all ranks. -/
theorem FMat.ofEdges_spec {m n ntx nty nrank : Nat} {pfn : Nat → Nat → Nat → Option Nat} {ow : Nat → Nat → Nat}
    {srt : MatSorts E} (hs : srt.OK) (hF : F.Laws ok Is)
    (hy : 0 < nty) (hx : 0 < ntx) (hr : 0 < nrank) (hpfn : ∀ i j, pfn j i nrank = some (ow i j))
    (how : ∀ i j, ow i j < nrank) {blobs : List (List (Edge E))} (hb : blobs.length = nrank)
    (hin : ∀ e ∈ blobs.flatten, InMat m n e)
    (hok : ∀ i j, i < nty → j < ntx →
      ok (ow i j) i j (blobs.flatten.filter (fun e => decide (tileOf m n nty ntx e = (i, j))))) :
    ∃ out D T L, FMat.ofEdges F m n ntx nty nrank pfn srt blobs = some (out, D) ∧
      out.length = nrank ∧
      (∀ r (h1 : r < out.length) (h2 : r < blobs.length), (out[r]).Perm (blobs[r])) ∧
      (nrank = 1 → out = blobs) ∧
      FMat.Rep Is D m n ntx nty nrank ow T L blobs.flatten := by
  unfold FMat.ofEdges
  let Mr : Nat → FMat Til := fun r => fmatEmpty m n ntx nty nrank ow r
  have halloc : (List.range nrank).mapM (fun r => FMat.alloc (Til := Til) m n ntx nty nrank r pfn) =
      some ((List.range nrank).map Mr) := by
    apply mapM_some
    intro r _
    unfold FMat.alloc
    rw [if_neg (by omega)]
    rw [mapM_some (g := fun j => (List.range nty).map (fun i => ow i j)) (by
      intro j _
      exact mapM_some (fun i _ => hpfn i j))]
    simp only [hpfn]
    rfl
  rw [halloc]
  simp only [Option.bind_eq_bind, Option.bind_some]
  by_cases h1 : nrank = 1
  · rw [if_pos h1]
    obtain ⟨b, rfl⟩ : ∃ b, blobs = [b] := by
      match blobs, hb with
      | [], h => simp at h; omega
      | [b], _ => exact ⟨b, rfl⟩
      | b :: c :: l, h => simp at h; omega
    obtain ⟨D, T, L', d1, d2⟩ := FMat.collect_ingest (recv := fun _ => b) hs hF hy hx how hin hok (by
      intro r hr
      rw [List.filter_eq_self.mpr]
      · simp
      · intro e _
        have := how (tileOf m n nty ntx e).1 (tileOf m n nty ntx e).2
        simp; omega)
    subst h1
    have : ((List.range 1).map Mr).zip [b] = (List.range 1).map (fun r => (Mr r, b)) := rfl
    rw [this, mapM_map]
    rw [show (fun r => FMat.ingestLocal F (Mr r, b).1 srt (Mr r, b).2) =
      (fun r => FMat.ingestLocal F (Mr r) srt b) from rfl]
    rw [d1]
    exact ⟨[b], D, T, L', rfl, rfl, fun r _ _ => List.Perm.refl _, fun _ => rfl, d2⟩
  · rw [if_neg h1]
    -- the sorted lists
    let key : Edge E → Nat := fun e => ow (tileOf m n nty ntx e).1 (tileOf m n nty ntx e).2
    let L : Nat → List (Edge E) → List (Edge E × Nat) := fun r es => srt.owner r (es.map (fun e => (e, key e)))
    have hL : ∀ r es, (L r es).Perm (es.map (fun e => (e, key e))) ∧ (L r es).Pairwise (fun a b => a.2 ≤ b.2) :=
      fun r es => ⟨(hs.owner r _).1, sorted_keys (hs.owner r _).2⟩
    have hout : (((List.range nrank).map Mr).zip blobs).mapM (fun Mb => FMat.shuffleOut Mb.1 srt Mb.2) =
        some ((((List.range nrank).map Mr).zip blobs).map (fun Mb =>
          ((L Mb.1.myrank Mb.2).map (·.1), (List.range nrank).map (fun i =>
            (below ((L Mb.1.myrank Mb.2).map (·.2)) i,
             below ((L Mb.1.myrank Mb.2).map (·.2)) (i + 1) - below ((L Mb.1.myrank Mb.2).map (·.2)) i))))) := by
      apply mapM_some
      rintro ⟨M, es⟩ hM
      obtain ⟨i, hi, he⟩ := List.getElem_of_mem hM
      rw [List.getElem_zip] at he
      simp only [Prod.mk.injEq] at he
      obtain ⟨he1, he2⟩ := he
      have hM : M = Mr i := by rw [← he1]; simp
      have hes : ∀ e ∈ es, InMat m n e := by
        intro e hee
        rw [← he2] at hee
        exact hin e (mem_flatten_get _ hee)
      subst hM
      unfold FMat.shuffleOut
      rw [mapM_some (g := fun e => (e, key e)) (by
        intro e hee
        simp only [Mr, fmatEmpty]
        rw [(tileOf_spec hy hx (hes e hee)).1]
        rfl)]
      simp only [Option.bind_eq_bind, Option.bind_some]
      rw [show srt.owner (Mr i).myrank (es.map (fun e => (e, key e))) = L i es from rfl]
      rw [sendPlan_spec (pairwise_map_snd (hL i es).2)]
      rfl
    rw [hout]
    simp only [Option.bind_some]
    rw [mapM_map]
    -- what each rank receives
    let Z := ((List.range nrank).map Mr).zip blobs
    let recv : Nat → List (Edge E) := fun r =>
      (Z.map (fun Mb => ((L Mb.1.myrank Mb.2).filter (fun a => decide (a.2 = r))).map (·.1))).flatten
    have hZlen : Z.length = nrank := by simp [Z, hb]
    have hZ : ∀ i (h : i < Z.length) (h' : i < blobs.length), Z[i] = (Mr i, blobs[i]) := by
      intro i h h'
      simp [Z]
    have hparts : ∀ r, r < nrank →
        (Z.map (fun Mb => ((L Mb.1.myrank Mb.2).map (·.1), (List.range nrank).map (fun i =>
            (below ((L Mb.1.myrank Mb.2).map (·.2)) i,
             below ((L Mb.1.myrank Mb.2).map (·.2)) (i + 1) - below ((L Mb.1.myrank Mb.2).map (·.2)) i))))).mapM
          (fun o => (o.2[r]?).bind fun pc => sliceOf o.1 pc.1 pc.2) =
        some (Z.map (fun Mb => ((L Mb.1.myrank Mb.2).filter (fun a => decide (a.2 = r))).map (·.1))) := by
      intro r hr
      rw [mapM_map]
      apply mapM_some
      intro Mb _
      simp only [List.getElem?_map, List.getElem?_range hr, Option.map_some, Option.bind_some]
      exact slice_below (hL _ _).2 r
    obtain ⟨D, T, L', d1, d2⟩ := FMat.collect_ingest (recv := recv) hs hF hy hx how hin hok (by
      intro r hr
      rw [← flatten_filter]
      apply flatten_perm
      · simp [hZlen, hb]
      · intro i h1 h2
        rw [List.getElem_map, List.getElem_map]
        rw [hZ i (by simpa using h1) (by simpa using h2)]
        refine (((hL i _).1.filter _).map _).trans ?_
        rw [filter_map_pair])
    have hD : (List.range nrank).mapM (fun r =>
        ((Z.map (fun Mb => ((L Mb.1.myrank Mb.2).map (·.1), (List.range nrank).map (fun i =>
            (below ((L Mb.1.myrank Mb.2).map (·.2)) i,
             below ((L Mb.1.myrank Mb.2).map (·.2)) (i + 1) - below ((L Mb.1.myrank Mb.2).map (·.2)) i))))).mapM
          (fun o => (o.2[(Mr r).myrank]?).bind fun pc => sliceOf o.1 pc.1 pc.2)).bind
          (fun parts => FMat.ingestLocal F (Mr r) srt parts.flatten)) =
        some D := by
      rw [← d1]
      have hm : ∀ {γ : Type} (l : List Nat) (f h : Nat → Option γ), (∀ b ∈ l, f b = h b) → l.mapM f = l.mapM h := by
        intro γ l f h hfh
        induction l with
        | nil => rfl
        | cons a l ih =>
          rw [List.mapM_cons, List.mapM_cons, hfh a List.mem_cons_self,
            ih (fun b hb => hfh b (List.mem_cons_of_mem _ hb))]
      apply hm
      intro r hr
      rw [List.mem_range] at hr
      show (List.mapM (fun o : List (Edge E) × List (Nat × Nat) => (o.2[r]?).bind fun pc => sliceOf o.1 pc.1 pc.2) _).bind _ = _
      rw [hparts r hr]
      rfl
    rw [hD]
    refine ⟨_, D, T, L', rfl, ?_, ?_, fun h => absurd h h1, d2⟩
    · simp only [List.length_map]; exact hZlen
    · intro r h1 h2
      simp only [List.length_map] at h1
      simp only [List.getElem_map]
      have := hZ r h1 h2
      simp only [Z] at this
      rw [this]
      refine ((hL r _).1.map _).trans ?_
      rw [List.map_map]
      have : ((fun x : Edge E × Nat => x.1) ∘ fun e => (e, key e)) = id := rfl
      rw [this, List.map_id]

/-! ### Reading and transposing -/

/-- The loop over the tiles of rank `r`. -/
theorem FMat.foldTiles_spec {m n ntx nty nrank : Nat} {ow : Nat → Nat → Nat} {T : Nat → Nat → Til} {r : Nat}
    (s : σ) (f : Nat → Nat → Til → σ → Option σ) :
    (fmatOf m n ntx nty nrank ow T r).foldTiles s f =
      ((cells nty ntx).filter (fun x => decide (ow x.1 x.2 = r))).foldlM (fun s x => f x.1 x.2 (T x.1 x.2) s) s := by
  unfold FMat.foldTiles
  rw [forLoop_range]
  have h1 : ∀ (l : List (Nat × Nat)) (F : σ → Nat × Nat → Option σ) (p : Nat × Nat → Bool) (s : σ),
      (l.filter p).foldlM F s = l.foldlM (fun s x => if p x = true then F s x else some s) s := by
    intro l F p
    induction l with
    | nil => intro s; rfl
    | cons a l ih =>
      intro s
      rw [List.foldlM_cons]
      by_cases h : p a = true
      · rw [List.filter_cons_of_pos h, List.foldlM_cons, if_pos h]
        cases F s a with
        | none => rfl
        | some s' => exact ih s'
      · rw [List.filter_cons_of_neg h, if_neg h, ih]; rfl
  rw [h1]
  unfold cells
  rw [foldlM_flatMap]
  show (List.range nty).foldlM _ s = _
  refine foldlM_ext ?_ s
  intro i hi s
  rw [forLoop_range, foldlM_map]
  show (List.range ntx).foldlM _ s = _
  refine foldlM_ext ?_ s
  intro j hj s
  rw [List.mem_range] at hi hj
  show ((some (ow i j)).bind fun o => if o = r then
    ((if i < nty ∧ j < ntx ∧ ow i j = r then some (T i j) else none).bind fun t => f i j t s) else some s) = _
  simp only [Option.bind_some, decide_eq_true_eq]
  by_cases ho : ow i j = r
  · rw [if_pos ho, if_pos ho, if_pos ⟨hi, hj, ho⟩]; rfl
  · rw [if_neg ho, if_neg ho]

/-- The edges of a tile with their global ids. -/
theorem FTile.edges_perm {m n nty ntx i j : Nat} {all : List (Edge E)} {t : Til} {l : List (Nat × Nat × E)}
    (hy : 0 < nty) (hx : 0 < ntx) (hin : ∀ e ∈ all, InMat m n e) (h : FTile Is m n nty ntx i j all t l) :
    (l.map (unlocal (bnd m nty i) (bnd n ntx j))).Perm (all.filter (fun e => decide (tileOf m n nty ntx e = (i, j)))) := by
  refine (h.2.map _).trans ?_
  rw [List.map_map, map_id_of]
  intro e he
  rw [List.mem_filter] at he
  obtain ⟨h1, _, h3, _⟩ := tileOf_inTile hy hx (hin e he.1) (by simpa using he.2)
  unfold localOf unlocal
  simp only [Function.comp]
  cases e with
  | mk s d v =>
    simp only [Edge.mk.injEq, and_true] at *
    omega

theorem FTile.mem {m n nty ntx i j : Nat} {all : List (Edge E)} {t : Til} {l : List (Nat × Nat × E)}
    (hy : 0 < nty) (hx : 0 < ntx) (hin : ∀ e ∈ all, InMat m n e) (h : FTile Is m n nty ntx i j all t l)
    {x : Nat × Nat × E} (he : x ∈ l) :
    x.1 < bnd m nty (i + 1) - bnd m nty i ∧ x.2.1 < bnd n ntx (j + 1) - bnd n ntx j := by
  have := h.2.mem_iff.mp he
  rw [List.mem_map] at this
  obtain ⟨e, h1, rfl⟩ := this
  rw [List.mem_filter] at h1
  obtain ⟨a1, a2, a3, a4⟩ := tileOf_inTile hy hx (hin e h1.1) (by simpa using h1.2)
  unfold localOf
  simp only
  omega

section
variable {D : List (FMat Til)} {m n ntx nty nrank : Nat} {ow : Nat → Nat → Nat} {T : Nat → Nat → Til}
  {L : Nat → Nat → List (Nat × Nat × E)} {all : List (Edge E)}

theorem FMat.Rep.localNNZ (hF : F.Laws ok Is) (h : FMat.Rep Is D m n ntx nty nrank ow T L all) (hy : 0 < nty) (hx : 0 < ntx) (r : Nat) :
    (fmatOf m n ntx nty nrank ow T r).foldTiles 0 (fun _ _ t k => some (k + F.nnz t)) =
      some (all.filter (fun e => decide (edgeOwner m n nty ntx ow e = r))).length := by
  rw [FMat.foldTiles_spec, foldlM_sum, Nat.zero_add, ← (rank_perm hy hx h.inMat r).length_eq, List.length_flatMap]
  congr 2
  apply List.map_congr_left
  intro x hxx
  rw [List.mem_filter, mem_cells] at hxx
  have ht := h.tile x.1 x.2 hxx.1.1 hxx.1.2
  rw [hF.nnz ht.1, ht.2.length_eq, List.length_map]

/-- The list `get_edges` returns on rank `r`. -/
def fmatEdges (m n ntx nty : Nat) (ow : Nat → Nat → Nat) (L : Nat → Nat → List (Nat × Nat × E)) (r : Nat) : List (Edge E) :=
  ((cells nty ntx).filter (fun x => decide (ow x.1 x.2 = r))).flatMap (fun x =>
    (L x.1 x.2).map (unlocal (bnd m nty x.1) (bnd n ntx x.2)))

theorem FMat.Rep.rankEdges_perm (h : FMat.Rep Is D m n ntx nty nrank ow T L all) (hy : 0 < nty) (hx : 0 < ntx) (r : Nat) :
    (fmatEdges m n ntx nty ow L r).Perm (all.filter (fun e => decide (edgeOwner m n nty ntx ow e = r))) := by
  refine List.Perm.trans ?_ (rank_perm hy hx h.inMat r)
  unfold fmatEdges
  apply flatMap_perm
  intro x hxx
  rw [List.mem_filter, mem_cells] at hxx
  exact (h.tile x.1 x.2 hxx.1.1 hxx.1.2).edges_perm hy hx h.inMat

theorem FMat.Rep.getEdges (hF : F.Laws ok Is) (h : FMat.Rep Is D m n ntx nty nrank ow T L all) (hy : 0 < nty) (hx : 0 < ntx) (r : Nat) :
    FMat.getEdges F (fmatOf m n ntx nty nrank ow T r) = some (fmatEdges m n ntx nty ow L r) := by
  unfold FMat.getEdges
  rw [FMat.Rep.localNNZ hF h hy hx r]
  simp only [Option.bind_eq_bind, Option.bind_some]
  have hp := FMat.Rep.rankEdges_perm h hy hx r
  by_cases h0 : (all.filter (fun e => decide (edgeOwner m n nty ntx ow e = r))).length > 0
  · rw [if_pos h0, FMat.foldTiles_spec]
    rw [foldlM_ext (G := fun s x => some (s ++
      (L x.1 x.2).map (unlocal (bnd m nty x.1) (bnd n ntx x.2)))) (by
      intro x hxx s
      rw [List.mem_filter, mem_cells] at hxx
      simp only [fmatOf]
      rw [startIds_get (by omega), startIds_get (by omega)]
      simp only [Option.bind_some]
      rw [hF.getEdges (h.tile x.1 x.2 hxx.1.1 hxx.1.2).1]
      rfl)]
    rw [foldlM_concat, List.nil_append]
    simp only [Option.bind_some]
    show (if (fmatEdges m n ntx nty ow L r).length = _ then some (fmatEdges m n ntx nty ow L r) else none) = _
    rw [if_pos hp.length_eq]
  · rw [if_neg h0]
    congr 1
    have := hp.length_eq
    exact (List.length_eq_zero_iff.mp (by omega)).symm

/-- All edges come back. -/
theorem FMat.Rep.allEdges (hF : F.Laws ok Is) (h : FMat.Rep Is D m n ntx nty nrank ow T L all) (hy : 0 < nty) (hx : 0 < ntx)
    (how : ∀ i j, ow i j < nrank) :
    D.mapM (FMat.getEdges F) = some ((List.range nrank).map (fmatEdges m n ntx nty ow L)) ∧
    ((List.range nrank).map (fmatEdges m n ntx nty ow L)).flatten.Perm all := by
  constructor
  · rw [h.mat, mapM_map]
    exact mapM_some (fun r _ => FMat.Rep.getEdges hF h hy hx r)
  · rw [← List.flatMap_def]
    exact (flatMap_perm (fun r _ => FMat.Rep.rankEdges_perm h hy hx r)).trans (edgeOwner_perm how)

/-- The number of nonzeros reported on every rank. -/
theorem FMat.Rep.getNNZ (hF : F.Laws ok Is) (h : FMat.Rep Is D m n ntx nty nrank ow T L all) (hy : 0 < nty) (hx : 0 < ntx)
    (how : ∀ i j, ow i j < nrank) (hlen : all.length < 2 ^ 32) :
    FMat.getNNZ F D = some (List.replicate nrank all.length) := by
  unfold FMat.getNNZ
  rw [h.mat, mapM_map, mapM_some (fun r _ => FMat.Rep.localNNZ hF h hy hx r)]
  simp only [Option.bind_eq_bind, Option.bind_some, List.map_map]
  have hle : ∀ r, (all.filter (fun e => decide (edgeOwner m n nty ntx ow e = r))).length < 2 ^ 32 :=
    fun r => Nat.lt_of_le_of_lt (List.length_filter_le _ _) hlen
  have hsum : ((List.range nrank).map (((fun k => k % 2 ^ 32)) ∘ fun r =>
      (all.filter (fun e => decide (edgeOwner m n nty ntx ow e = r))).length)).sum = all.length := by
    have := (edgeOwner_perm (m := m) (n := n) (nty := nty) (ntx := ntx) (all := all) how).length_eq
    rw [List.length_flatMap] at this
    rw [← this]
    congr 1
    apply List.map_congr_left
    intro r _
    exact Nat.mod_eq_of_lt (hle r)
  rw [hsum, Nat.mod_eq_of_lt hlen]
  congr 1
  rw [List.eq_replicate_iff]
  refine ⟨by simp, ?_⟩
  intro b hb
  rw [List.mem_map] at hb
  obtain ⟨r, _, rfl⟩ := hb
  have := hle r
  simp only [Function.comp]
  rw [Nat.div_eq_of_lt this]; simp

theorem FMat.Rep.getNNZ_total (hF : F.Laws ok Is) (h : FMat.Rep Is D m n ntx nty nrank ow T L all) (hy : 0 < nty) (hx : 0 < ntx) :
    ∃ l, FMat.getNNZ F D = some l := by
  unfold FMat.getNNZ
  rw [h.mat, mapM_map, mapM_some (fun r _ => FMat.Rep.localNNZ hF h hy hx r)]
  exact ⟨_, rfl⟩

theorem FMat.Rep.transpose (hF : F.Laws ok Is) {F' : TileFmt E Til} {ok' : Nat → Nat → Nat → List (Edge E) → Prop}
    {Is' : Til → Nat → Nat → List (Nat × Nat × E) → Prop} (hF' : F'.Laws ok' Is') (h : FMat.Rep Is D m n ntx nty nrank ow T L all) (hy : 0 < nty) (hx : 0 < ntx)
    (hr : 0 < nrank) {pfn : Nat → Nat → Nat → Option Nat} {ntx' nty' : Nat} {ow' : Nat → Nat → Nat}
    (hy' : 0 < nty') (hx' : 0 < ntx') (hpfn : ∀ i j, pfn j i nrank = some (ow' i j))
    (how : ∀ i j, ow i j < nrank) (how' : ∀ i j, ow' i j < nrank) {srt : MatSorts E} (hs : srt.OK)
    (hok : ∀ i j, i < nty' → j < ntx' →
      ok' (ow' i j) i j ((all.map swapEdge).filter (fun e => decide (tileOf n m nty' ntx' e = (i, j))))) :
    ∃ DT T' L', FMat.transpose F F' D m n ntx' nty' nrank pfn srt = some DT ∧
      FMat.Rep Is' DT n m ntx' nty' nrank ow' T' L' (all.map swapEdge) := by
  obtain ⟨h1, h2⟩ := FMat.Rep.allEdges hF h hy hx how
  unfold FMat.transpose
  rw [h1]
  simp only [Option.bind_eq_bind, Option.bind_some]
  have hflat : (((List.range nrank).map (fmatEdges m n ntx nty ow L)).map (fun es => es.map swapEdge)).flatten =
      ((List.range nrank).map (fmatEdges m n ntx nty ow L)).flatten.map swapEdge := by
    rw [List.map_flatten]
  obtain ⟨out, DT, T', L', d1, _, _, _, d2⟩ := FMat.ofEdges_spec (m := n) (n := m) hs hF' hy' hx' hr hpfn how'
    (blobs := ((List.range nrank).map (fmatEdges m n ntx nty ow L)).map (fun es => es.map swapEdge))
    (by simp) (by
      intro e he
      rw [hflat, List.mem_map] at he
      obtain ⟨e', he', rfl⟩ := he
      obtain ⟨a1, a2, a3, a4⟩ := h.inMat e' (h2.mem_iff.mp he')
      exact ⟨a3, a4, a1, a2⟩) (by
      intro i j hi hj
      refine hF'.perm ?_ (hok i j hi hj)
      rw [hflat]
      exact ((h2.map _).filter _).symm)
  refine ⟨DT, T', L', ?_, ?_⟩
  · rw [show (fun es : List (Edge E) => es.map (fun e => ({ e with src := e.dst, dst := e.src } : Edge E))) =
      (fun es => es.map swapEdge) from rfl, d1]
    rfl
  · rw [hflat] at d2
    exact d2.congr (h2.map _)
end

/-! ### Multiplying -/

/-- `f` multiplies segments with an `m` x `n` tile that has the entries `l`. -/
def MultOf (m n : Nat) (pm : E → T → U) (add : U → U → U) (l : List (Nat × Nat × E))
    (f : Segment T → Segment U → Option (Segment U)) : Prop :=
  ∀ (sx : Segment T) (sy : Segment U), sx.WF → sx.Ready → sy.WF → sx.capacity = n → sy.capacity = m →
    ∃ s', f sx sy = some s' ∧ Adds add (contrib sx.view (fun _ => pm) l) sy s'

theorem FMat.colPairs_spec {m n ntx nty nrank : Nat} {ow : Nat → Nat → Nat} {T : Nat → Nat → Til} (r0 : Nat)
    (how : ∀ i j, ow i j < nrank) :
    ∃ L, rankPairs ntx (fmatOf m n ntx nty nrank ow T r0).colRanks = some L ∧ L.Nodup ∧
      (∀ jr, jr ∈ L ↔ jr.1 < ntx ∧ ∃ i, i < nty ∧ ow i jr.1 = jr.2) ∧ ∀ jr ∈ L, jr.1 < ntx ∧ jr.2 < nrank := by
  obtain ⟨L, h1, h2, h3⟩ := rankPairs_spec (k := ntx) (ranks := (fmatOf m n ntx nty nrank ow T r0).colRanks)
    (S := fun j => rankSet ((List.range nty).map (fun i => ow i j))) (by
      intro j _
      unfold FMat.colRanks
      have e : (List.range nty).mapM (fun i => (fmatOf m n ntx nty nrank ow T r0).node i j) =
          some ((List.range nty).map (fun i => ow i j)) := mapM_some (fun _ _ => rfl)
      show Option.bind ((List.range nty).mapM (fun i => (fmatOf m n ntx nty nrank ow T r0).node i j)) _ = _
      rw [e]
      rfl) (fun j => (rankSet_spec _).1)
  have h4 : ∀ jr, jr ∈ L ↔ jr.1 < ntx ∧ ∃ i, i < nty ∧ ow i jr.1 = jr.2 := by
    intro jr
    rw [h3, (rankSet_spec _).2, List.mem_map]
    simp only [List.mem_range]
  refine ⟨L, h1, h2, h4, ?_⟩
  intro jr hjr
  obtain ⟨a, i, _, e⟩ := (h4 jr).mp hjr
  exact ⟨a, by rw [← e]; exact how _ _⟩

theorem FMat.rowPairs_spec {m n ntx nty nrank : Nat} {ow : Nat → Nat → Nat} {T : Nat → Nat → Til} (r0 : Nat)
    (how : ∀ i j, ow i j < nrank) :
    ∃ L, rankPairs nty (fmatOf m n ntx nty nrank ow T r0).rowRanks = some L ∧ L.Nodup ∧
      (∀ ir, ir ∈ L ↔ ir.1 < nty ∧ ∃ j, j < ntx ∧ ow ir.1 j = ir.2) ∧ ∀ ir ∈ L, ir.1 < nty ∧ ir.2 < nrank := by
  obtain ⟨L, h1, h2, h3⟩ := rankPairs_spec (k := nty) (ranks := (fmatOf m n ntx nty nrank ow T r0).rowRanks)
    (S := fun i => rankSet ((List.range ntx).map (fun j => ow i j))) (by
      intro i _
      unfold FMat.rowRanks
      have e : (List.range ntx).mapM (fun j => (fmatOf m n ntx nty nrank ow T r0).node i j) =
          some ((List.range ntx).map (fun j => ow i j)) := mapM_some (fun _ _ => rfl)
      show Option.bind ((List.range ntx).mapM (fun j => (fmatOf m n ntx nty nrank ow T r0).node i j)) _ = _
      rw [e]
      rfl) (fun j => (rankSet_spec _).1)
  have h4 : ∀ ir, ir ∈ L ↔ ir.1 < nty ∧ ∃ j, j < ntx ∧ ow ir.1 j = ir.2 := by
    intro ir
    rw [h3, (rankSet_spec _).2, List.mem_map]
    simp only [List.mem_range]
  refine ⟨L, h1, h2, h4, ?_⟩
  intro ir hir
  obtain ⟨a, i, _, e⟩ := (h4 ir).mp hir
  exact ⟨a, by rw [← e]; exact how _ _⟩

/-- What one tile brings to a row. -/
theorem FTile.incoming {m n ntx nty nrank i j p w : Nat} {l : List (Nat × Nat × E)}
    (h : ∀ x ∈ l, x.1 < bnd m nty (i + 1) - bnd m nty i ∧ x.2.1 < bnd n ntx (j + 1) - bnd n ntx j)
    (hj : j < ntx) (hw1 : bnd m nty p < w) (hw2 : w ≤ bnd m nty (p + 1)) (x : DVec T) (pm : Nat → E → T → U) :
    GraphMat.incoming (x.sem n ntx nrank) pm (l.map (unlocal (bnd m nty i) (bnd n ntx j))) w =
      if i = p then contrib (x.own nrank j).view (fun row => pm (bnd m nty i + row + 1)) l
        (w - bnd m nty p - 1) else [] := by
  unfold GraphMat.incoming contrib
  rw [show unlocal (bnd m nty i) (bnd n ntx j) = (fun x : Nat × Nat × E => ({ src := (bnd m nty i : Int) + x.1 + 1, dst := (bnd n ntx j : Int) + x.2.1 + 1, val := x.2.2 } : Edge E)) from rfl]
  rw [List.filterMap_map]
  by_cases hi : i = p
  · subst hi
    rw [if_pos rfl]
    apply List.filterMap_congr
    intro e he
    obtain ⟨r1, r2⟩ := h e he
    simp only [Function.comp]
    by_cases hr : e.1 = w - bnd m nty i - 1
    · rw [if_pos hr, if_pos (by omega)]
      have hd : ((bnd n ntx j : Int) + e.2.1 + 1).toNat = bnd n ntx j + e.2.1 + 1 := by omega
      rw [hd, DVec.sem_of (p := j) (getPartition_iff.mpr ⟨hj, by omega, by omega⟩)]
      rw [show bnd n ntx j + e.2.1 + 1 - bnd n ntx j - 1 = e.2.1 by omega,
        show bnd m nty i + (w - bnd m nty i - 1) + 1 = w by omega]
    · rw [if_neg hr, if_neg (by omega)]
  · rw [if_neg hi]
    apply filterMap_none
    intro e he
    obtain ⟨r1, r2⟩ := h e he
    simp only [Function.comp]
    rw [if_neg]
    intro hs
    apply hi
    refine seg_unique (f := bnd m nty) (v := (w : Int)) (fun i j h => bnd_mono' h) ?_ ?_ ?_ ?_
    · omega
    · have := bnd_mono (n := m) (nseg := nty) (i := i); omega
    · omega
    · omega

theorem FMat.Rep.edges_perm {D : List (FMat Til)} {m n ntx nty nrank : Nat} {ow : Nat → Nat → Nat} {T' : Nat → Nat → Til}
    {L : Nat → Nat → List (Nat × Nat × E)} {all : List (Edge E)} (h : FMat.Rep Is D m n ntx nty nrank ow T' L all)
    (hy : 0 < nty) (hx : 0 < ntx) (how : ∀ i j, ow i j < nrank) :
    ((List.range nrank).map (fmatEdges m n ntx nty ow L)).flatten.Perm all := by
  rw [← List.flatMap_def]
  exact (flatMap_perm (fun r _ => FMat.Rep.rankEdges_perm h hy hx r)).trans (edgeOwner_perm how)

/-- What the tiles of one rank bring to a row. -/
theorem FMat.incoming_rank {D : List (FMat Til)} {m n ntx nty nrank : Nat} {ow : Nat → Nat → Nat} {T' : Nat → Nat → Til}
    {L : Nat → Nat → List (Nat × Nat × E)} {all : List (Edge E)} (h : FMat.Rep Is D m n ntx nty nrank ow T' L all)
    (hy : 0 < nty) (hx : 0 < ntx) {p w : Nat} (hw1 : bnd m nty p < w) (hw2 : w ≤ bnd m nty (p + 1)) (x : DVec T) (pm : Nat → E → T → U) (r : Nat) :
    incoming (x.sem n ntx nrank) pm (fmatEdges m n ntx nty ow L r) w =
      (((cells nty ntx).filter (fun x => decide (ow x.1 x.2 = r))).filter (fun x => decide (x.1 = p))).flatMap
        (fun c => contrib (x.own nrank c.2).view (fun row => pm (bnd m nty c.1 + row + 1))
          (L c.1 c.2) (w - bnd m nty p - 1)) := by
  unfold fmatEdges
  rw [incoming_flatMap]
  have hall : ∀ c ∈ (cells nty ntx).filter (fun x => decide (ow x.1 x.2 = r)), c.1 < nty ∧ c.2 < ntx := by
    intro c hc
    rw [List.mem_filter, mem_cells] at hc
    exact hc.1
  generalize (cells nty ntx).filter (fun x => decide (ow x.1 x.2 = r)) = l at hall
  induction l with
  | nil => rfl
  | cons c l ih =>
    have hc := hall c List.mem_cons_self
    have ht := h.tile c.1 c.2 hc.1 hc.2
    rw [List.flatMap_cons, ih (fun c hc => hall c (List.mem_cons_of_mem _ hc)),
      FTile.incoming (nrank := nrank) (fun _ he => ht.mem hy hx h.inMat he) hc.2 hw1 hw2 x pm]
    by_cases e : c.1 = p
    · rw [if_pos e, List.filter_cons_of_pos (by simpa using e), List.flatMap_cons]
    · rw [if_neg e, List.filter_cons_of_neg (by simpa using e)]; rfl

/-- The (row, rank) pairs for which partial results are exchanged. -/
def fmatRowPairs (m n ntx nty nrank : Nat) (ow : Nat → Nat → Nat) (T : Nat → Nat → Til) : List (Nat × Nat) :=
  (rankPairs nty (fmatOf m n ntx nty nrank ow T 0).rowRanks).getD []

/-- From the multiplied partial results to the final `y`. -/
theorem FMat.reduce_final {D : List (FMat Til)} {m n ntx nty nrank : Nat} {ow : Nat → Nat → Nat} {T' : Nat → Nat → Til}
    {L : Nat → Nat → List (Nat × Nat × E)} {all : List (Edge E)} (h : FMat.Rep Is D m n ntx nty nrank ow T' L all)
    (hy0 : 0 < nty) (hx0 : 0 < ntx) (hr : 0 < nrank) (how : ∀ i j, ow i j < nrank) {threads : Nat} (hth : 0 < threads)
    (ser : Bool) (add : U → U → U) (g gq : Nat → Nat → Fresh U) {pairs : List (Nat × Nat)} (hnd : pairs.Nodup)
    (hpairs : ∀ ir, ir ∈ pairs ↔ ir.1 < nty ∧ ∃ j, j < ntx ∧ ow ir.1 j = ir.2)
    {x : DVec T} {y y1 : DVec U} (hy1 : y1.WF m nty nrank) (hq : y.Quiet nty nrank) (pm : Nat → E → T → U)
    (hmul : ∀ r p, r < nrank → p < nty → (y1.cell (r, p)).received = (y.cell (r, p)).received ∧
        ∀ i, (y1.cell (r, p)).view i = accum add ((y.cell (r, p)).view i)
          ((((cells nty ntx).filter (fun x => decide (ow x.1 x.2 = r))).filter (fun x => decide (x.1 = p))).flatMap
            (fun c => contrib (x.own nrank c.2).view (fun row => pm (bnd m nty c.1 + row + 1))
              (L c.1 c.2) i))) :
    ∃ y' : DVec U, y1.reduceRows ser threads nrank nty add g gq pairs = some y' ∧ y'.WF m nty nrank ∧
      y'.Ready nty nrank ∧ y'.Quiet nty nrank ∧
      (∀ w, 1 ≤ w → w ≤ m → ∀ l0, Reduces add l0 (y.sem m nty nrank w) →
        Reduces add (l0 ++ incoming (x.sem n ntx nrank) pm all w) (y'.sem m nty nrank w)) ∧
      (∀ w, 1 ≤ w → w ≤ m → y'.sem m nty nrank w = rowFold add m nty nrank pairs (y.sem m nty nrank w)
        (fun r => incoming (x.sem n ntx nrank) pm (fmatEdges m n ntx nty ow L r) w) w) := by
  have hv : ∀ ir ∈ pairs, ir.1 < nty ∧ ir.2 < nrank := by
    intro ir hir
    obtain ⟨a, j, _, e⟩ := (hpairs ir).mp hir
    exact ⟨a, by rw [← e]; exact how _ _⟩
  obtain ⟨y', a1, a2, a3, a4⟩ := DVec.reduceRows_spec hy1 hr ser hth add g gq hnd hv (by
    intro p hp
    have := (hmul (p % nrank) p (Nat.mod_lt _ hr) hp).1
    show (y1.cell (p % nrank, p)).received = []
    rw [this]; exact hq.1 p hp)
  have hrow : ∀ w, 1 ≤ w → w ≤ m → ∃ p, p < nty ∧ bnd m nty p < w ∧ w ≤ bnd m nty (p + 1) ∧
      y'.sem m nty nrank w = (partners nrank pairs p).foldl (fun acc r => combine add acc
        (accum add none (incoming (x.sem n ntx nrank) pm (fmatEdges m n ntx nty ow L r) w)))
        (accum add (y.sem m nty nrank w)
          (incoming (x.sem n ntx nrank) pm (fmatEdges m n ntx nty ow L (p % nrank)) w)) := by
    intro w h1 h2
    obtain ⟨p, hp, hps, hp1, hp2⟩ := locate hy0 h1 h2
    refine ⟨p, hps, hp1, hp2, ?_⟩
    rw [DVec.sem_of hp, DVec.sem_of hp, (a3 p hps).2.2 _ (by omega)]
    have e1 : (y1.own nrank p).view (w - bnd m nty p - 1) = accum add ((y.own nrank p).view (w - bnd m nty p - 1))
        (incoming (x.sem n ntx nrank) pm (fmatEdges m n ntx nty ow L (p % nrank)) w) := by
      rw [FMat.incoming_rank h hy0 hx0 hp1 hp2]
      exact (hmul (p % nrank) p (Nat.mod_lt _ hr) hps).2 _
    rw [e1]
    have e2 : ∀ (l : List Nat) (a : Option U), (∀ r ∈ l, r < nrank ∧ p % nrank ≠ r) →
        l.foldl (fun acc r => combine add acc ((y1.cell (r, p)).view (w - bnd m nty p - 1))) a =
        l.foldl (fun acc r => combine add acc
          (accum add none (incoming (x.sem n ntx nrank) pm (fmatEdges m n ntx nty ow L r) w))) a := by
      intro l
      induction l with
      | nil => intro a _; rfl
      | cons r l ih =>
        intro a hl
        have hrr := hl r List.mem_cons_self
        rw [List.foldl_cons, List.foldl_cons, ih _ (fun r hr => hl r (List.mem_cons_of_mem _ hr)),
          (hmul r p hrr.1 hps).2, hq.2 r p hrr.1 hps hrr.2, FMat.incoming_rank h hy0 hx0 hp1 hp2]
    exact e2 _ _ (by
      intro r hrm
      rw [mem_partners] at hrm
      exact ⟨(hv _ hrm.1).2, hrm.2⟩)
  refine ⟨y', a1, a2, fun p hp => (a3 p hp).1, ⟨fun p hp => (a3 p hp).2.1, a4⟩, ?_, ?_⟩
  · intro w h1 h2 l0 hl0
    obtain ⟨p, hps, hp1, hp2, e⟩ := hrow w h1 h2
    rw [e]
    refine ((hl0.accum _).foldl_combine (partners nrank pairs p)).perm ?_
    rw [List.append_assoc]
    apply List.Perm.append_left
    have hsplit : (incoming (x.sem n ntx nrank) pm all w).Perm
        ((List.range nrank).flatMap (fun r => incoming (x.sem n ntx nrank) pm (fmatEdges m n ntx nty ow L r) w)) := by
      rw [← incoming_flatMap]
      have := h.edges_perm hy0 hx0 how
      rw [← List.flatMap_def] at this
      exact this.symm.filterMap _
    refine List.Perm.trans ?_ hsplit.symm
    rw [← List.flatMap_cons (f := fun r => incoming (x.sem n ntx nrank) pm (fmatEdges m n ntx nty ow L r) w)]
    refine List.Perm.symm (flatMap_support List.nodup_range ?_ ?_ ?_)
    · rw [List.nodup_cons]
      refine ⟨?_, nodup_partners hnd p⟩
      rw [mem_partners]
      exact fun hh => hh.2 rfl
    · intro r hrm
      rw [List.mem_range]
      rcases List.mem_cons.mp hrm with rfl | hrm
      · exact Nat.mod_lt _ hr
      · exact (hv _ (mem_partners.mp hrm).1).2
    · intro r hrr hnm
      rw [FMat.incoming_rank h hy0 hx0 hp1 hp2]
      rw [List.filter_eq_nil_iff.mpr]
      · rfl
      · intro c hc hcp
        rw [List.mem_filter, mem_cells] at hc
        have hcr : ow c.1 c.2 = r := by simpa using hc.2
        have hcp : c.1 = p := by simpa using hcp
        apply hnm
        rw [List.mem_cons, mem_partners]
        by_cases ho : r = p % nrank
        · exact .inl ho
        · refine .inr ⟨(hpairs _).mpr ⟨hps, c.2, hc.1.2, by rw [← hcp]; exact hcr⟩, fun h => ho h.symm⟩
  · intro w h1 h2
    obtain ⟨p, hps, hp1, hp2, e⟩ := hrow w h1 h2
    rw [e]
    unfold rowFold
    rw [getPartition_iff.mpr ⟨hps, by omega, by omega⟩]

theorem FMat.Rep.head {D : List (FMat Til)} {m n ntx nty nrank : Nat} {ow : Nat → Nat → Nat} {T' : Nat → Nat → Til}
    {L : Nat → Nat → List (Nat × Nat × E)} {all : List (Edge E)} (h : FMat.Rep Is D m n ntx nty nrank ow T' L all) {r : Nat}
    (hr : r < nrank) : D[r]? = some (fmatOf m n ntx nty nrank ow T' r) := by
  rw [h.mat, List.getElem?_map, List.getElem?_range hr]; rfl

theorem FMat.spmspv_spec {D : List (FMat Til)} {m n ntx nty nrank : Nat} {ow : Nat → Nat → Nat} {T' : Nat → Nat → Til}
    {L : Nat → Nat → List (Nat × Nat × E)} {all : List (Edge E)} (h : FMat.Rep Is D m n ntx nty nrank ow T' L all)
    (hy0 : 0 < nty) (hx0 : 0 < ntx) (hr : 0 < nrank) (how : ∀ i j, ow i j < nrank) {threads : Nat} (hth : 0 < threads)
    (env : MulEnv T U V) (add : U → U → U) {pm : E → T → U}
    {mult : Nat → Nat → Nat → Til → Segment T → Segment U → Option (Segment U)}
    (hm : ∀ i j, i < nty → j < ntx → MultOf (bnd m nty (i + 1) - bnd m nty i) (bnd n ntx (j + 1) - bnd n ntx j) pm add (L i j)
      (mult (ow i j) i j (T' i j)))
    {x : DVec T} {y : DVec U} (hx : x.WF n ntx nrank) (rx0 : ∀ p, p < ntx → (x.own nrank p).Ready ∨ ∃ i, i < nty ∧ ow i p ≠ p % nrank) (hy : y.WF m nty nrank)
    (hq : y.Quiet nty nrank) :
    ∃ (x' : DVec T) (y' : DVec U), FMat.spmspv env threads nrank D mult add x y = some (x', y') ∧
      x'.WF n ntx nrank ∧ x'.Ready ntx nrank ∧ (∀ w, x'.sem n ntx nrank w = x.sem n ntx nrank w) ∧
      y'.WF m nty nrank ∧ y'.Ready nty nrank ∧ y'.Quiet nty nrank ∧
      (∀ w, 1 ≤ w → w ≤ m → ∀ l0, Reduces add l0 (y.sem m nty nrank w) →
        Reduces add (l0 ++ incoming (x.sem n ntx nrank) (fun _ => pm) all w) (y'.sem m nty nrank w)) ∧
      (∀ w, 1 ≤ w → w ≤ m → y'.sem m nty nrank w =
        rowFold add m nty nrank (fmatRowPairs m n ntx nty nrank ow T') (y.sem m nty nrank w)
          (fun r => incoming (x.sem n ntx nrank) (fun _ => pm) (fmatEdges m n ntx nty ow L r) w) w) := by
  obtain ⟨cp, c1, c2, c3, c4⟩ := FMat.colPairs_spec (m := m) (n := n) (T := T') (ntx := ntx) (nty := nty) 0 how
  obtain ⟨rp, r1, r2, r3, r4⟩ := FMat.rowPairs_spec (m := m) (n := n) (T := T') (ntx := ntx) (nty := nty) 0 how
  have rx : x.Usable ntx nrank cp := by
    intro p hp
    rcases rx0 p hp with h | ⟨i, hi, hne⟩
    · exact .inl h
    · exact .inr ⟨(p, ow i p), mem_foreign.mpr ⟨(c3 _).mpr ⟨hp, i, hi, rfl⟩, fun e => hne e.symm⟩, rfl⟩
  obtain ⟨x1, b1, b2, b3⟩ := DVec.broadcast_spec hx hr env.serT hth env.gx c2 c4
  obtain ⟨x2, f1, f2, f3, f4⟩ := broadcast_free hr rx b2 b3
  obtain ⟨y1, m1, m2, m3⟩ := multiply_spec (ntx := ntx) (ow := ow) hy
    (B := fun r yv => (x1.read r).bind fun xv => (D[r]?).bind fun M => M.foldTiles yv (fun i j t yv =>
      (xv.segs.read j).bind fun sx =>
      yv.modifySeg i (fun sy => mult r i j t sx sy)))
    (op := fun r c s => mult r c.1 c.2 (T' c.1 c.2)
      (x1.cell (r, c.2)) s) (by
      intro r hrr v
      rw [Arr.read_some (by rw [b2.size]; exact hrr), Option.bind_some, h.head hrr, Option.bind_some, FMat.foldTiles_spec]
      refine foldlM_ext ?_ v
      intro c hc v
      rw [List.mem_filter, mem_cells] at hc
      rw [Arr.read_some (by rw [(b2.rank r hrr).size]; exact hc.1.2)]
      rfl) (add := add)
    (K := fun c => contrib (x.own nrank c.2).view (fun _ => pm) (L c.1 c.2)) (by
      intro r hrr c hc1 hc2 hco s hs hcap
      have hmem : (c.2, r) ∈ cp := (c3 _).mpr ⟨hc2, c.1, hc1, hco⟩
      obtain ⟨u1, u2⟩ := broadcast_use rx hc2 (b3 r c.2 hrr hc2) hmem
      obtain ⟨s', q1, q2⟩ := hm c.1 c.2 hc1 hc2 (x1.cell (r, c.2)) s ((b2.rank r hrr).seg c.2 hc2) u1 hs
        ((b2.rank r hrr).cap c.2 hc2) hcap
      rw [hco] at q1
      refine ⟨s', q1, ?_⟩
      rw [← u2]
      exact q2)
  obtain ⟨y2, z1, z2, z3, z4, z5, z6⟩ := FMat.reduce_final h hy0 hx0 hr how hth env.serU add env.gy env.gq r2 r3
    (x := x) m2 hq (fun _ => pm) m3
  refine ⟨x2, y2, ?_, f2, f3, f4, z2, z3, z4, z5, by unfold fmatRowPairs; rw [r1]; exact z6⟩
  unfold FMat.spmspv
  simp only [Option.bind_eq_bind]
  rw [h.head hr, Option.bind_some]
  have e1 : (fmatOf m n ntx nty nrank ow T' 0).ntx = ntx := rfl
  have e2 : (fmatOf m n ntx nty nrank ow T' 0).nty = nty := rfl
  rw [e1, e2, c1, Option.bind_some, r1, Option.bind_some, b1, Option.bind_some, m1, Option.bind_some, f1,
    Option.bind_some, z1]
  rfl

end GraphMat

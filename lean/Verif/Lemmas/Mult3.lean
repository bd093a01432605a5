import Verif.Lemmas.AnyVec
import Verif.Lemmas.SpMSpV
import Verif.Props.FmtMat
import Verif.Model.Mult3

/-!
# Products with a third vector that has values only where they are needed
-/
namespace GraphMat

variable {E T U V α : Type}

/-- As `fold_contrib`; the step is only known for the entries that are there. -/
theorem fold_contrib_mem {cap : Nat} {add : U → U → U} {xm : Nat → Option T} {pm : Nat → E → T → U}
    {F : Nat → E → T → Arr U × Arr Word → Option (Arr U × Arr Word)}
    (l : List (Nat × Nat × E))
    (hF : ∀ e ∈ l, ∀ x, xm e.2.1 = some x → ∀ st, POk cap st → ∃ st', F e.1 e.2.2 x st = some st' ∧ POk cap st' ∧
      ∀ j, pview cap st' j = if j = e.1 then combine add (pview cap st j) (some (pm e.1 e.2.2 x)) else pview cap st j)
    (st : Arr U × Arr Word) (h : POk cap st) :
    ∃ st', l.foldlM (fun st x =>
      match xm x.2.1 with
      | some m => F x.1 x.2.2 m st
      | none => some st) st = some st' ∧ POk cap st' ∧
      ∀ j, pview cap st' j = accum add (pview cap st j) (contrib xm pm l j) := by
  induction l generalizing st with
  | nil => exact ⟨st, rfl, h, fun j => rfl⟩
  | cons x l ih =>
    rw [List.foldlM_cons]
    cases hx : xm x.2.1 with
    | none =>
      obtain ⟨st', e1, e2, e3⟩ := ih (fun y hy => hF y (List.mem_cons_of_mem _ hy)) st h
      refine ⟨st', e1, e2, ?_⟩
      intro j
      rw [e3]
      unfold contrib
      rw [List.filterMap_cons_none]
      rw [hx]; simp
    | some m =>
      obtain ⟨st1, f1, f2, f3⟩ := hF x List.mem_cons_self m hx st h
      obtain ⟨st', e1, e2, e3⟩ := ih (fun y hy => hF y (List.mem_cons_of_mem _ hy)) st1 f2
      refine ⟨st', ?_, e2, ?_⟩
      · show Option.bind (F x.1 x.2.2 m st) _ = _
        rw [f1]; exact e1
      · intro j
        rw [e3, f3]
        unfold contrib
        by_cases hj : j = x.1
        · subst hj
          rw [if_pos rfl, List.filterMap_cons_some (b := pm x.1 x.2.2 m) (by rw [if_pos rfl, hx]; rfl)]
          rfl
        · rw [if_neg hj, List.filterMap_cons_none (by rw [if_neg (fun h => hj h.symm)])]

/-- `mult_segment3` when the third segment has the values that are needed. -/
theorem multSegment3_hit {t : Tile E} {P : Nat → List (Col E)} (h : t.Rep P) {sx : Segment T} {sv : Segment V}
    {sy : Segment U} (hx : sx.WF) (rx : sx.Ready) (hv : sv.WF) (rv : sv.Ready) (hy : sy.WF)
    (cx : sx.capacity = t.n) (cv : sv.capacity = t.m) (cy : sy.capacity = t.m) {vm : Nat → V}
    (hvm : ∀ e ∈ allEnts t.np P, (sx.view e.2.1).isSome → sv.view e.1 = some (vm e.1))
    (g : Fresh U) (tmp : Nat → Nat → U) {mul : E → T → V → U → U} {pm : E → T → V → U}
    (hm : ∀ e x v old, mul e x v old = pm e x v) (add : U → U → U) :
    ∃ sy', multSegment3 g tmp mul add t sx sv sy = some sy' ∧ sy'.WF ∧ sy'.Ready ∧ sy'.capacity = sy.capacity ∧
      sy'.received = sy.received ∧ sy'.pool = sy.pool ∧
      ∀ i, sy'.view i = accum add (sy.view i)
        (contrib sx.view (fun row e x => pm e x (vm row)) (allEnts t.np P) i) := by
  obtain ⟨b, hb, hu, hd, ht, hbv, _⟩ := sy.alloc_initialize hy g
  obtain ⟨bx, x1, x2, x3⟩ := Segment.ready_pview hx rx
  obtain ⟨bv, v1, v2, v3⟩ := Segment.ready_pview hv rv
  rw [cx] at x2 x3
  rw [cv] at v2 v3
  unfold multSegment3
  rw [hb]
  simp only [Option.bind_eq_bind, Option.bind_some]
  rw [x1, Option.bind_some, v1, Option.bind_some]
  unfold Tile.spmspv3
  rw [h.walk (xs := (bx.value, bx.bits)) x2
    (F := fun row a x st => mulAdd3 mul add (st.1.get 0) bv.value bv.bits row a x st) (by
    intro p nz row a x st
    unfold mulAdd3
    simp only [hm])]
  have hpok : POk t.m (b.value, b.bits) := ⟨by rw [← cy]; exact hd.value, by rw [← cy, ← hy.ni]; exact hd.bits,
    by rw [← cy]; exact ht⟩
  obtain ⟨st', f1, f2, f3⟩ := fold_contrib_mem (cap := t.m) (add := add) (xm := sx.view)
    (pm := fun row e x => pm e x (vm row))
    (F := fun row a x st => mulAdd3 mul add (st.1.get 0) bv.value bv.bits row a x st) (allEnts t.np P)
    (fun e he x hxe st hst => mulAdd3_spec (vs := (bv.value, bv.bits)) (v := vm e.1) (fun old => hm _ _ _ old) v2
      (by rw [v3]; exact hvm e he (by rw [hxe]; rfl)) (mem_allEnts_row h he).1 hst) (b.value, b.bits) hpok
  rw [x3]
  obtain ⟨s', s1, s2, s3, s4, s5, s6, s7⟩ := storeResult_spec (s := { sy with props := some b })
    (hy.congr_props hd (fun _ => ht)) (b := b) hd hu (st := st') (by rw [cy]; exact f2)
  refine ⟨s', (congrArg (fun o => Option.bind o _) f1).trans s1, s2, s3, s4, s5, s6, ?_⟩
  intro i
  rw [s7]
  show pview sy.capacity st' i = _
  rw [cy, f3, ← hbv, Buffer.pview_eq hd hu, cy]

/-- `mult_segment3` stops at the assertion when a value of the third segment is missing. -/
theorem multSegment3_missing {t : Tile E} {P : Nat → List (Col E)} (h : t.Rep P) {sx : Segment T} {sv : Segment V}
    (hx : sx.WF) (rx : sx.Ready) (hv : sv.WF) (rv : sv.Ready) (cx : sx.capacity = t.n) (cv : sv.capacity = t.m)
    {e : Nat × Nat × E} (he : e ∈ allEnts t.np P) (hxe : (sx.view e.2.1).isSome) (hve : sv.view e.1 = none)
    (g : Fresh U) (tmp : Nat → Nat → U) {mul : E → T → V → U → U} {pm : E → T → V → U}
    (hm : ∀ e x v old, mul e x v old = pm e x v) (add : U → U → U) (sy : Segment U) :
    multSegment3 g tmp mul add t sx sv sy = none := by
  obtain ⟨bx, x1, x2, x3⟩ := Segment.ready_pview hx rx
  obtain ⟨bv, v1, v2, v3⟩ := Segment.ready_pview hv rv
  rw [cx] at x2 x3
  rw [cv] at v2 v3
  unfold multSegment3
  simp only [Option.bind_eq_bind]
  refine bind_fails fun sy1 _ => ?_
  rw [x1, Option.bind_some, v1, Option.bind_some]
  refine bind_fails fun b _ => none_fails ?_
  unfold Tile.spmspv3
  rw [h.walk (xs := (bx.value, bx.bits)) x2
    (F := fun row a x st => mulAdd3 mul add (st.1.get 0) bv.value bv.bits row a x st) (by
    intro p nz row a x st
    unfold mulAdd3
    simp only [hm])]
  refine foldlM_fails (b := e) ?_ he _
  intro st
  rw [x3]
  obtain ⟨x, hx⟩ := Option.isSome_iff_exists.mp hxe
  rw [hx]
  simp only
  unfold mulAdd3
  have hlt := (mem_allEnts_row h he).1
  have hb : bitAt bv.bits e.1 = false := by
    rw [← v3] at hve
    unfold pview at hve
    split at hve
    · cases hve
    · next hh =>
      by_contra hc
      exact hh ⟨hlt, by simpa using hc⟩
  simp only [Option.bind_eq_bind]
  rw [getBitvector_eq (by rw [v2.bits]; exact word_lt hlt), Option.bind_some, hb]
  rfl

/-- The entries of a tile are entries of the matrix. -/
theorem DMat.Rep.tile_entry {D : DMat E} {m n ntx nty nrank : Nat} {ow : Nat → Nat → Nat} {T' : Nat → Nat → Tile E}
    {P : Nat → Nat → Nat → List (Col E)} {all : List (Edge E)} (h : D.Rep m n ntx nty nrank ow T' P all)
    (hy0 : 0 < nty) (hx0 : 0 < ntx) {i j : Nat} (hi : i < nty) (hj : j < ntx) {e : Nat × Nat × E}
    (he : e ∈ allEnts (T' i j).np (P i j)) :
    (⟨(bnd m nty i : Int) + e.1 + 1, (bnd n ntx j : Int) + e.2.1 + 1, e.2.2⟩ : Edge E) ∈ all := by
  have := tileEdges_perm hy0 hx0 h.inMat (h.tile i j hi hj)
  have hmem := this.mem_iff.mp (List.mem_map.mpr ⟨e, he, rfl⟩)
  exact (List.mem_filter.mp hmem).1

theorem eachRank_fails {σ : Type} {d : Arr σ} {f : Nat → σ → Option σ} {r : Nat} (hr : r < d.size)
    (h : f r (d.get r) = none) : eachRank d f = none := by
  cases hc : eachRank d f with
  | none => rfl
  | some d' =>
    have := (eachRank_some hc).2 r hr
    rw [h] at this
    cases this

/-- After the exchange and the release of the copies no copy has values. -/
theorem broadcast_quiet {n nseg nrank : Nat} {d d1 d2 : DVec α} (hr : 0 < nrank) {pairs : List (Nat × Nat)}
    (h1 : d1.WF n nseg nrank) (hb : ∀ r p, r < nrank → p < nseg → BCell nrank pairs d (r, p) (d1.cell (r, p)))
    (h2 : d1.freeNonOwned nseg = some d2) (hq : d.Quiet nseg nrank) : d2.Quiet nseg nrank := by
  obtain ⟨d2', e1, e2, e3⟩ := DVec.freeNonOwned_spec h1 hr
  rw [h2] at e1
  injection e1 with e1
  subst e1
  refine ⟨?_, ?_⟩
  · intro p hp
    have hm := Nat.mod_lt p hr
    have := e3 (p % nrank) p hm hp
    rw [if_pos rfl] at this
    show (d2.cell (p % nrank, p)).received = []
    rw [this, (hb _ _ hm hp).received]
    exact hq.1 p hp
  · intro r p hrr hp hne i
    rw [e3 r p hrr hp, if_neg hne, Segment.setUninitialized_view]

section

variable {D : DMat E} {m n ntx nty nrank : Nat} {ow : Nat → Nat → Nat} {T' : Nat → Nat → Tile E}
  {P : Nat → Nat → Nat → List (Col E)} {all : List (Edge E)}

/-- `SpMSpV3` when the third vector has the values that are needed. -/
theorem DMat.spmspv3_shared (h : D.Rep m n ntx nty nrank ow T' P all)
    (hy0 : 0 < nty) (hx0 : 0 < ntx) (hr : 0 < nrank) (how : ∀ i j, ow i j < nrank) {threads : Nat} (hth : 0 < threads)
    (env : MulEnv T U V) {mul : E → T → V → U → U} {pm : E → T → V → U}
    (hm : ∀ e x v old, mul e x v old = pm e x v) (add : U → U → U)
    {x : DVec T} {vp : DVec V} {y : DVec U} (hx : x.WF n ntx nrank)
    (rx0 : ∀ p, p < ntx → (x.own nrank p).Ready ∨ ∃ i, i < nty ∧ ow i p ≠ p % nrank)
    (hv : vp.WF m nty nrank) (rv0 : ∀ p, p < nty → (vp.own nrank p).Ready ∨ ∃ j, j < ntx ∧ ow p j ≠ p % nrank)
    {vm : Nat → V} (hvm : ∀ e ∈ all, (x.sem n ntx nrank e.dst.toNat).isSome →
      vp.sem m nty nrank e.src.toNat = some (vm e.src.toNat)) (hy : y.WF m nty nrank)
    (hq : y.Quiet nty nrank) :
    ∃ (x' : DVec T) (vp' : DVec V) (y' : DVec U), D.spmspv3 env threads nrank mul add x vp y = some (x', vp', y') ∧
      x'.WF n ntx nrank ∧ x'.Ready ntx nrank ∧ (∀ w, x'.sem n ntx nrank w = x.sem n ntx nrank w) ∧
      vp'.WF m nty nrank ∧ vp'.Ready nty nrank ∧ (∀ w, vp'.sem m nty nrank w = vp.sem m nty nrank w) ∧
      y'.WF m nty nrank ∧ y'.Quiet nty nrank ∧
      (∀ w, 1 ≤ w → w ≤ m → ∀ l0, Reduces add l0 (y.sem m nty nrank w) →
        Reduces add (l0 ++ incoming (x.sem n ntx nrank) (fun w e x => pm e x (vm w)) all w) (y'.sem m nty nrank w)) ∧
      y'.Ready nty nrank ∧ (x.Quiet ntx nrank → x'.Quiet ntx nrank) ∧ (vp.Quiet nty nrank → vp'.Quiet nty nrank) := by
  obtain ⟨cp, c1, c2, c3, c4⟩ := colPairs_spec (m := m) (n := n) (T := T') (ntx := ntx) (nty := nty) 0 how
  obtain ⟨rp, r1, r2, r3, r4⟩ := rowPairs_spec (m := m) (n := n) (T := T') (ntx := ntx) (nty := nty) 0 how
  have rx : x.Usable ntx nrank cp := by
    intro p hp
    rcases rx0 p hp with h | ⟨i, hi, hne⟩
    · exact .inl h
    · exact .inr ⟨(p, ow i p), mem_foreign.mpr ⟨(c3 _).mpr ⟨hp, i, hi, rfl⟩, fun e => hne e.symm⟩, rfl⟩
  have rv : vp.Usable nty nrank rp := by
    intro p hp
    rcases rv0 p hp with h | ⟨j, hj, hne⟩
    · exact .inl h
    · exact .inr ⟨(p, ow p j), mem_foreign.mpr ⟨(r3 _).mpr ⟨hp, j, hj, rfl⟩, fun e => hne e.symm⟩, rfl⟩
  obtain ⟨x1, b1, b2, b3⟩ := DVec.broadcast_spec hx hr env.serT hth env.gx c2 c4
  obtain ⟨x2, f1, f2, f3, f4⟩ := broadcast_free hr rx b2 b3
  obtain ⟨v1, w1, w2, w3⟩ := DVec.broadcast_spec hv hr env.serV hth env.gv r2 r4
  obtain ⟨v2, k1, k2, k3, k4⟩ := broadcast_free hr rv w2 w3
  obtain ⟨y1, m1, m2, m3⟩ := multiply_spec (ntx := ntx) (ow := ow) hy
    (B := fun r yv => (x1.read r).bind fun xv => (v1.read r).bind fun vv => (D[r]?).bind fun M =>
      M.foldTiles yv (fun i j t yv =>
      (xv.segs.read j).bind fun sx => (vv.segs.read i).bind fun sv =>
      yv.modifySeg i (fun sy => multSegment3 (env.gy r i) (env.tmp i j) mul add t sx sv sy)))
    (op := fun r c s => multSegment3 (env.gy r c.1) (env.tmp c.1 c.2) mul add (T' c.1 c.2)
      (x1.cell (r, c.2)) (v1.cell (r, c.1)) s) (by
      intro r hrr v
      rw [Arr.read_some (by rw [b2.size]; exact hrr), Option.bind_some,
        Arr.read_some (by rw [w2.size]; exact hrr), Option.bind_some, h.head hrr, Option.bind_some, foldTiles_spec]
      refine foldlM_ext ?_ v
      intro c hc v
      rw [List.mem_filter, mem_cells] at hc
      rw [Arr.read_some (by rw [(b2.rank r hrr).size]; exact hc.1.2),
        Option.bind_some, Arr.read_some (by rw [(w2.rank r hrr).size]; exact hc.1.1)]
      rfl) (add := add)
    (K := fun c => contrib (x.own nrank c.2).view
      (fun row => (fun w e x => pm e x (vm w)) (bnd m nty c.1 + row + 1)) (allEnts (T' c.1 c.2).np (P c.1 c.2))) (by
      intro r hrr c hc1 hc2 hco s hs hcap
      have ht := h.tile c.1 c.2 hc1 hc2
      obtain ⟨u1, u2⟩ := broadcast_use rx hc2 (b3 r c.2 hrr hc2) ((c3 _).mpr ⟨hc2, c.1, hc1, hco⟩)
      obtain ⟨t1, t2⟩ := broadcast_use rv hc1 (w3 r c.1 hrr hc1) ((r3 _).mpr ⟨hc1, c.2, hc2, hco⟩)
      obtain ⟨s', q1, q2, q3, q4, q5, q6, q7⟩ := multSegment3_hit ht.1 ((b2.rank r hrr).seg c.2 hc2) u1
        ((w2.rank r hrr).seg c.1 hc1) t1 hs
        (by rw [ht.2.2.1]; exact (b2.rank r hrr).cap c.2 hc2) (by rw [ht.2.1]; exact (w2.rank r hrr).cap c.1 hc1)
        (by rw [hcap, ht.2.1]) (vm := fun i => vm (bnd m nty c.1 + i + 1)) (by
          intro e he hxe
          obtain ⟨hr1, hr2⟩ := mem_allEnts_row ht.1 he
          rw [ht.2.1] at hr1
          rw [ht.2.2.1] at hr2
          have hE := hvm _ (h.tile_entry hy0 hx0 hc1 hc2 he) (by
            simp only
            rw [show ((bnd n ntx c.2 : Int) + e.2.1 + 1).toNat = bnd n ntx c.2 + e.2.1 + 1 by omega,
              DVec.sem_of (p := c.2) (getPartition_iff.mpr ⟨hc2, by omega, by omega⟩),
              show bnd n ntx c.2 + e.2.1 + 1 - bnd n ntx c.2 - 1 = e.2.1 by omega, ← u2]
            exact hxe)
          simp only at hE
          rw [show ((bnd m nty c.1 : Int) + e.1 + 1).toNat = bnd m nty c.1 + e.1 + 1 by omega,
            DVec.sem_of (p := c.1) (getPartition_iff.mpr ⟨hc1, by omega, by omega⟩),
            show bnd m nty c.1 + e.1 + 1 - bnd m nty c.1 - 1 = e.1 by omega] at hE
          rw [← hE]
          exact congrFun t2 _)
        (env.gy r c.1) (env.tmp c.1 c.2) (mul := mul) (pm := pm) hm add
      refine ⟨s', q1, q2, q3, q4, q5, ?_⟩
      intro i
      rw [q7, ← u2]; rfl)
  obtain ⟨y2, z1, z2, z3, z4, z5, z6⟩ := reduce_final h hy0 hx0 hr how hth env.serU add env.gy env.gq r2 r3
    (x := x) m2 hq (fun w e x => pm e x (vm w)) m3
  refine ⟨x2, v2, y2, ?_, f2, f3, f4, k2, k3, k4, z2, z4, z5, z3, broadcast_quiet hr b2 b3 f1, broadcast_quiet hr w2 w3 k1⟩
  unfold DMat.spmspv3
  simp only [Option.bind_eq_bind]
  rw [h.head hr, Option.bind_some]
  have e1 : (matOf m n ntx nty nrank ow T' 0).ntx = ntx := rfl
  have e2 : (matOf m n ntx nty nrank ow T' 0).nty = nty := rfl
  rw [e1, e2, c1, Option.bind_some, r1, Option.bind_some, b1, Option.bind_some, w1, Option.bind_some, m1,
    Option.bind_some, f1, Option.bind_some, k1, Option.bind_some, z1]
  rfl

/-- `SpMSpV3` stops at the assertion when the third vector lacks a value that is needed. -/
theorem DMat.spmspv3_missing (h : D.Rep m n ntx nty nrank ow T' P all)
    (hy0 : 0 < nty) (hx0 : 0 < ntx) (hr : 0 < nrank) (how : ∀ i j, ow i j < nrank) {threads : Nat} (hth : 0 < threads)
    (env : MulEnv T U V) {mul : E → T → V → U → U} {pm : E → T → V → U}
    (hm : ∀ e x v old, mul e x v old = pm e x v) (add : U → U → U)
    {x : DVec T} {vp : DVec V} {y : DVec U} (hx : x.WF n ntx nrank)
    (rx0 : ∀ p, p < ntx → (x.own nrank p).Ready ∨ ∃ i, i < nty ∧ ow i p ≠ p % nrank)
    (hv : vp.WF m nty nrank) (rv0 : ∀ p, p < nty → (vp.own nrank p).Ready ∨ ∃ j, j < ntx ∧ ow p j ≠ p % nrank)
    {e : Edge E} (he : e ∈ all) (hxe : (x.sem n ntx nrank e.dst.toNat).isSome)
    (hve : vp.sem m nty nrank e.src.toNat = none) (hy : y.WF m nty nrank) :
    D.spmspv3 env threads nrank mul add x vp y = none := by
  obtain ⟨cp, c1, c2, c3, c4⟩ := colPairs_spec (m := m) (n := n) (T := T') (ntx := ntx) (nty := nty) 0 how
  obtain ⟨rp, r1, r2, r3, r4⟩ := rowPairs_spec (m := m) (n := n) (T := T') (ntx := ntx) (nty := nty) 0 how
  have rx : x.Usable ntx nrank cp := by
    intro p hp
    rcases rx0 p hp with h | ⟨i, hi, hne⟩
    · exact .inl h
    · exact .inr ⟨(p, ow i p), mem_foreign.mpr ⟨(c3 _).mpr ⟨hp, i, hi, rfl⟩, fun e => hne e.symm⟩, rfl⟩
  have rv : vp.Usable nty nrank rp := by
    intro p hp
    rcases rv0 p hp with h | ⟨j, hj, hne⟩
    · exact .inl h
    · exact .inr ⟨(p, ow p j), mem_foreign.mpr ⟨(r3 _).mpr ⟨hp, j, hj, rfl⟩, fun e => hne e.symm⟩, rfl⟩
  obtain ⟨x1, b1, b2, b3⟩ := DVec.broadcast_spec hx hr env.serT hth env.gx c2 c4
  obtain ⟨v1, w1, w2, w3⟩ := DVec.broadcast_spec hv hr env.serV hth env.gv r2 r4
  obtain ⟨s1, s2, s3, s4⟩ := h.inMat e he
  obtain ⟨i, j, hij⟩ : ∃ i j, tileOf m n nty ntx e = (i, j) := ⟨_, _, rfl⟩
  obtain ⟨_, hilt, hjlt, hi1, hi2, hj1, hj2⟩ := tileOf_spec hy0 hx0 (h.inMat e he)
  rw [hij] at hilt hjlt hi1 hi2 hj1 hj2
  simp only at hilt hjlt hi1 hi2 hj1 hj2
  have hi : getPartition m nty e.src.toNat = some i := getPartition_iff.mpr ⟨hilt, by omega, by omega⟩
  have hj : getPartition n ntx e.dst.toNat = some j := getPartition_iff.mpr ⟨hjlt, by omega, by omega⟩
  have ht := h.tile i j hilt hjlt
  have hent : ∃ a ∈ allEnts (T' i j).np (P i j), e = ⟨(bnd m nty i : Int) + a.1 + 1, (bnd n ntx j : Int) + a.2.1 + 1, a.2.2⟩ := by
    have := (tileEdges_perm hy0 hx0 h.inMat ht).mem_iff.mpr (List.mem_filter.mpr ⟨he, by simpa using hij⟩)
    obtain ⟨a, ha, e⟩ := List.mem_map.mp this
    exact ⟨a, ha, e.symm⟩
  obtain ⟨a, ha, hae⟩ := hent
  have hi' : bnd m nty i + a.1 + 1 = e.src.toNat := by rw [hae]; simp only; omega
  have hj' : bnd n ntx j + a.2.1 + 1 = e.dst.toNat := by rw [hae]; simp only; omega
  rw [DVec.sem_of hi, ← hi', show bnd m nty i + a.1 + 1 - bnd m nty i - 1 = a.1 by omega] at hve
  rw [DVec.sem_of hj, ← hj', show bnd n ntx j + a.2.1 + 1 - bnd n ntx j - 1 = a.2.1 by omega] at hxe
  have hrr := how i j
  unfold DMat.spmspv3
  simp only [Option.bind_eq_bind]
  rw [h.head hr, Option.bind_some]
  have e1 : (matOf m n ntx nty nrank ow T' 0).ntx = ntx := rfl
  have e2 : (matOf m n ntx nty nrank ow T' 0).nty = nty := rfl
  rw [e1, e2, c1, Option.bind_some, r1, Option.bind_some, b1, Option.bind_some, w1, Option.bind_some]
  refine none_fails (eachRank_fails (r := ow i j) (by rw [hy.size]; exact hrr) ?_)
  rw [Arr.read_some (by rw [b2.size]; exact hrr), Option.bind_some,
    Arr.read_some (by rw [w2.size]; exact hrr), Option.bind_some, h.head hrr, Option.bind_some, foldTiles_spec]
  refine foldlM_fails (b := (i, j)) ?_ (by
    rw [List.mem_filter, mem_cells]
    exact ⟨⟨hilt, hjlt⟩, by simp⟩) _
  intro v
  simp only
  rw [Arr.read_some (by rw [(b2.rank _ hrr).size]; exact hjlt),
    Option.bind_some, Arr.read_some (by rw [(w2.rank _ hrr).size]; exact hilt), Option.bind_some]
  obtain ⟨u1, u2⟩ := broadcast_use rx hjlt (b3 _ j hrr hjlt) ((c3 _).mpr ⟨hjlt, i, hilt, rfl⟩)
  obtain ⟨t1, t2⟩ := broadcast_use rv hilt (w3 _ i hrr hilt) ((r3 _).mpr ⟨hilt, j, hjlt, rfl⟩)
  unfold SpVec.modifySeg
  simp only [Option.bind_eq_bind]
  refine bind_fails fun sy _ => none_fails ?_
  exact multSegment3_missing ht.1 ((b2.rank _ hrr).seg j hjlt) u1 ((w2.rank _ hrr).seg i hilt) t1
    (by rw [ht.2.2.1]; exact (b2.rank _ hrr).cap j hjlt) (by rw [ht.2.1]; exact (w2.rank _ hrr).cap i hilt)
    ha (by
      have := congrFun u2 a.2.1
      unfold DVec.cell at this
      simp only at this
      rw [this]; exact hxe) (by
      have := congrFun t2 a.1
      unfold DVec.cell at this
      simp only at this
      rw [this]; exact hve) _ _ hm add sy

end

/-! ### Segments in use -/

theorem VecOp.exec_inUse {n nseg nrank : Nat} {d d' : DVec α} (hd : d.WF n nseg nrank) (hs : 0 < nseg) (hr : 0 < nrank)
    {g : Nat → Nat → Fresh α} {op : VecOp α} (hop : op.Valid n) (h : op.exec g d = some d') {u : Nat → Bool}
    (hu : ∀ p, p < nseg → u p = true → (d.own nrank p).Ready) :
    ∀ p, p < nseg → op.inUse (fun w => getPartition n nseg w) u p = true → (d'.own nrank p).Ready := by
  intro p hp hin
  have hm := Nat.mod_lt p hr
  have hmd : p % nrank < d.size := by rw [hd.size]; exact hm
  cases op with
  | set w x =>
    have e2 := (eachRank_some h).2 _ hmd
    obtain ⟨q, hq, _⟩ := locate hs hop.1 hop.2
    obtain ⟨v', a1, _, a3, a4, a5⟩ := SpVec.set_spec (hd.rank _ hm) hr (g (p % nrank) 0) x hq
    rw [a1] at e2
    injection e2 with e2
    unfold DVec.own
    rw [← e2]
    simp only [VecOp.inUse, hq, Bool.or_eq_true, decide_eq_true_eq, Option.some.injEq] at hin
    by_cases e : q = p
    · subst e
      exact (a4 rfl).1
    · rw [a5 p (fun h => e h.symm)]
      exact hu p hp (hin.resolve_left e)
  | unset w =>
    have e2 := (eachRank_some h).2 _ hmd
    obtain ⟨q, hq, _⟩ := locate hs hop.1 hop.2
    obtain ⟨v', a1, _, a3, a4, a5⟩ := SpVec.unset_spec (hd.rank _ hm) hr (g (p % nrank) 0) hq
    rw [a1] at e2
    injection e2 with e2
    unfold DVec.own
    rw [← e2]
    simp only [VecOp.inUse, hq, Bool.or_eq_true, decide_eq_true_eq, Option.some.injEq] at hin
    by_cases e : q = p
    · subst e
      exact (a4 rfl).1
    · rw [a5 p (fun h => e h.symm)]
      exact hu p hp (hin.resolve_left e)
  | setAll x =>
    have e2 := (eachRank_some h).2 _ hmd
    obtain ⟨v', a1, _, a3, _⟩ := SpVec.setAll_spec (hd.rank _ hm) hr (g (p % nrank)) x
    rw [a1] at e2
    injection e2 with e2
    unfold DVec.own
    rw [← e2]
    exact (a3 p hp rfl).1
  | clear => simp [VecOp.inUse] at hin

end GraphMat

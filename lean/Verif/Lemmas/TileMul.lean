import Verif.Lemmas.Reduce
import Verif.Lemmas.TileRep
import Verif.Model.SpMSpV

namespace GraphMat

variable {E T U V σ : Type}

/-- The loop nest visits the stored entries of a partition whose column holds a message, in stored order. -/
theorem Tile.Rep.walkPart {t : Tile E} {P : Nat → List (Col E)} (h : t.Rep P) {xs : Arr T × Arr Word}
    (hx : POk t.n xs) {f : Nat → Nat → Nat → E → T → σ → Option σ} {F : Nat → E → T → σ → Option σ}
    (hf : ∀ p nz row a x st, f p nz row a x st = F row a x st) {p : Nat} (hp : p < t.np) (st : σ) :
    t.walkPart xs.1 xs.2 f p st = (flat (P p)).foldlM (fun st x =>
      match pview t.n xs x.2.1 with
      | some m => F x.1 x.2.2 m st
      | none => some st) st := by
  unfold Tile.walkPart
  simp only [Option.bind_eq_bind]
  rw [(h.cs p hp).1, Option.bind_some, (h.ep p hp).1, Option.bind_some, (h.cs p hp).2, Option.bind_some]
  rw [coff_succ, flat, foldlM_flatMap]
  refine forLoop_list (by simp) ?_ st
  intro j hj st
  have hcol : (P p)[j].1 < t.n := h.cols p hp _ (List.getElem_mem hj)
  rw [Nat.zero_add, h.col p hp j hj, Option.bind_some, foldlM_map]
  have hw : (P p)[j].1 / 32 < xs.2.size := by rw [hx.bits]; exact word_lt hcol
  rw [getBitvector_eq hw, Option.bind_some]
  by_cases hbit : bitAt xs.2 (P p)[j].1 = true
  · have hv : pview t.n xs (P p)[j].1 = some (xs.1.get (P p)[j].1) := by
      unfold pview; rw [if_pos ⟨hcol, hbit⟩]
    rw [if_pos hbit, Arr.read_some (by rw [hx.value]; exact hcol), Option.bind_some,
      h.ptr p hp j (by omega), Option.bind_some, Nat.add_assoc, h.ptr p hp (j + 1) (by omega), Option.bind_some]
    refine Tile.Rep.inner hj ?_ st
    intro k hk st
    simp only [hv]
    rw [h.row p hp k hk, Option.bind_some, h.val p hp k hk, Option.bind_some, hf]
  · have hv : pview t.n xs (P p)[j].1 = none := by
      unfold pview; rw [if_neg (fun h => hbit h.2)]
    rw [if_neg hbit]
    simp only [hv]
    generalize (P p)[j].2 = l
    induction l with
    | nil => rfl
    | cons a l ih => exact ih

/-- The loop nest visits the stored entries whose column holds a message, in stored order. -/
theorem Tile.Rep.walk {t : Tile E} {P : Nat → List (Col E)} (h : t.Rep P) {xs : Arr T × Arr Word}
    (hx : POk t.n xs) {f : Nat → Nat → Nat → E → T → σ → Option σ} {F : Nat → E → T → σ → Option σ}
    (hf : ∀ p nz row a x st, f p nz row a x st = F row a x st) (st : σ) :
    t.walk xs.1 xs.2 f st = (allEnts t.np P).foldlM (fun st x =>
      match pview t.n xs x.2.1 with
      | some m => F x.1 x.2.2 m st
      | none => some st) st := by
  unfold Tile.walk allEnts
  rw [forLoop_range, foldlM_flatMap]
  refine foldlM_ext ?_ st
  intro p hp st
  exact h.walkPart hx hf (List.mem_range.mp hp) st

/-- The values a tile contributes to its row `i`. -/
def contrib (xm : Nat → Option T) (pm : Nat → E → T → U) (l : List (Nat × Nat × E)) (i : Nat) : List U :=
  l.filterMap (fun x => if x.1 = i then (xm x.2.1).map (pm i x.2.2) else none)

theorem fold_contrib {cap : Nat} {add : U → U → U} {xm : Nat → Option T} {pm : Nat → E → T → U}
    {F : Nat → E → T → Arr U × Arr Word → Option (Arr U × Arr Word)}
    (hF : ∀ row a x st, row < cap → POk cap st → ∃ st', F row a x st = some st' ∧ POk cap st' ∧
      ∀ j, pview cap st' j = if j = row then combine add (pview cap st j) (some (pm row a x)) else pview cap st j)
    (l : List (Nat × Nat × E)) (hl : ∀ x ∈ l, x.1 < cap) (st : Arr U × Arr Word) (h : POk cap st) :
    ∃ st', l.foldlM (fun st x =>
      match xm x.2.1 with
      | some m => F x.1 x.2.2 m st
      | none => some st) st = some st' ∧ POk cap st' ∧
      ∀ j, pview cap st' j = accum add (pview cap st j) (contrib xm pm l j) := by
  induction l generalizing st with
  | nil => exact ⟨st, rfl, h, fun j => rfl⟩
  | cons x l ih =>
    rw [List.foldlM_cons]
    cases hx : xm x.2.1 with
    | none =>
      obtain ⟨st', e1, e2, e3⟩ := ih (fun y hy => hl y (List.mem_cons_of_mem _ hy)) st h
      refine ⟨st', e1, e2, ?_⟩
      intro j
      rw [e3]
      unfold contrib
      rw [List.filterMap_cons_none]
      rw [hx]; simp
    | some m =>
      obtain ⟨st1, f1, f2, f3⟩ := hF x.1 x.2.2 m st (hl x List.mem_cons_self) h
      obtain ⟨st', e1, e2, e3⟩ := ih (fun y hy => hl y (List.mem_cons_of_mem _ hy)) st1 f2
      refine ⟨st', ?_, e2, ?_⟩
      · show Option.bind (F x.1 x.2.2 m st) _ = _
        rw [f1]; exact e1
      · intro j
        rw [e3, f3]
        unfold contrib
        by_cases hj : j = x.1
        · subst hj
          rw [if_pos rfl, List.filterMap_cons_some (b := pm x.1 x.2.2 m) (by rw [if_pos rfl, hx]; rfl)]
          rfl
        · rw [if_neg hj, List.filterMap_cons_none (by rw [if_neg (fun h => hj h.symm)])]

theorem mulAdd_spec {cap : Nat} {mul : E → T → U → U} {add : U → U → U} {old : U} {row : Nat} {a : E} {x : T}
    {st : Arr U × Arr Word} {u : U} (hu : mul a x old = u) (hr : row < cap) (h : POk cap st) :
    ∃ st', mulAdd mul add old row a x st = some st' ∧ POk cap st' ∧
      ∀ j, pview cap st' j = if j = row then combine add (pview cap st j) (some u) else pview cap st j := by
  obtain ⟨st', h1, h2, h3⟩ := mergeOne_spec add row u st hr h
  refine ⟨st', ?_, h2, h3⟩
  rw [← h1]
  unfold mulAdd mergeOne
  rw [hu]
  have hw : row / 32 < st.2.size := by rw [h.bits]; exact word_lt hr
  simp only [Option.bind_eq_bind]
  rw [getBitvector_eq hw, Option.bind_some, Option.bind_some]
  by_cases hbit : bitAt st.2 row = true
  · rw [if_pos hbit, if_pos hbit]
  · rw [if_neg hbit, if_neg hbit]
    rw [Arr.write_some (by rw [h.value]; exact hr)]
    cases setBitvector row st.2 with
    | none => rfl
    | some b => rfl

theorem mulAdd3_spec {cap : Nat} {mul : E → T → V → U → U} {add : U → U → U} {old : U} {vs : Arr V × Arr Word}
    {row : Nat} {a : E} {x : T} {v : V} {st : Arr U × Arr Word} {u : U} (hu : ∀ old, mul a x v old = u)
    (hvs : POk cap vs) (hv : pview cap vs row = some v) (hr : row < cap) (h : POk cap st) :
    ∃ st', mulAdd3 mul add old vs.1 vs.2 row a x st = some st' ∧ POk cap st' ∧
      ∀ j, pview cap st' j = if j = row then combine add (pview cap st j) (some u) else pview cap st j := by
  obtain ⟨st', h1, h2, h3⟩ := mergeOne_spec add row u st hr h
  refine ⟨st', ?_, h2, h3⟩
  rw [← h1]
  unfold mulAdd3 mergeOne
  have hw : row / 32 < st.2.size := by rw [h.bits]; exact word_lt hr
  have hwv : row / 32 < vs.2.size := by rw [hvs.bits]; exact word_lt hr
  have hvb : bitAt vs.2 row = true ∧ vs.1.get row = v := by
    unfold pview at hv
    split at hv
    · next hh => exact ⟨hh.2, by injection hv⟩
    · cases hv
  simp only [Option.bind_eq_bind]
  rw [getBitvector_eq hwv, Option.bind_some, hvb.1, getBitvector_eq hw, Option.bind_some, Option.bind_some]
  simp only [Bool.not_true, Bool.false_eq_true, if_false]
  rw [Arr.read_some (by rw [hvs.value]; exact hr), Option.bind_some, hvb.2,
    Arr.read_some (by rw [h.value]; exact hr), Option.bind_some, hu, hu]
  by_cases hbit : bitAt st.2 row = true
  · rw [if_pos hbit, if_pos hbit]; rfl
  · rw [if_neg hbit, if_neg hbit]
    rw [Arr.write_some (by rw [h.value]; exact hr)]
    cases setBitvector row st.2 with
    | none => rfl
    | some b => rfl

theorem mem_allEnts_row {t : Tile E} {P : Nat → List (Col E)} (h : t.Rep P) {x : Nat × Nat × E}
    (hx : x ∈ allEnts t.np P) : x.1 < t.m ∧ x.2.1 < t.n := by
  unfold allEnts at hx
  rw [List.mem_flatMap] at hx
  obtain ⟨p, hp, hx⟩ := hx
  rw [List.mem_range] at hp
  obtain ⟨c, hc, e, he, rfl⟩ := mem_flat.mp hx
  refine ⟨?_, h.cols p hp c hc⟩
  have h1 := (h.rows p hp c hc e he).2
  have : ∀ q, p + 1 + q ≤ t.np → t.rp.get (p + 1) ≤ t.rp.get (p + 1 + q) := by
    intro q
    induction q with
    | zero => intro _; exact Nat.le_refl _
    | succ q ih => intro hq; exact Nat.le_trans (ih (by omega)) (h.mono _ (by omega))
  have h2 := this (t.np - (p + 1)) (by omega)
  rw [show p + 1 + (t.np - (p + 1)) = t.np by omega, h.final (by omega)] at h2
  show e.1 < t.m
  omega

theorem storeResult_spec {s : Segment U} (h : s.WF) {b : Buffer U} (hd : b.Dims s.capacity s.numInts)
    (hu : b.uninit = false) {st : Arr U × Arr Word} (hst : POk s.capacity st) :
    ∃ s', storeResult s b st = some s' ∧ s'.WF ∧ s'.Ready ∧ s'.capacity = s.capacity ∧
      s'.received = s.received ∧ s'.pool = s.pool ∧ ∀ i, s'.view i = pview s.capacity st i := by
  have hd' : ∀ k : Int, ({ b with value := st.1, bits := st.2, nnz := k } : Buffer U).Dims s.capacity s.numInts :=
    fun k => ⟨hst.value, by rw [h.ni]; exact hst.bits, hd.cdata, hd.cidx⟩
  have hw : ∀ k : Int, ({ s with props := some { b with value := st.1, bits := st.2, nnz := k } } : Segment U).WF :=
    fun k => h.congr_props (hd' k) (fun _ => hst.tail)
  unfold storeResult
  simp only [Option.bind_eq_bind]
  have e : ({ b with value := st.1, bits := st.2 } : Buffer U) = { b with value := st.1, bits := st.2, nnz := b.nnz } := rfl
  rw [e, Segment.computeNnz_spec (hw b.nnz), Option.bind_some]
  refine ⟨_, rfl, hw _, ⟨_, rfl, hu⟩, rfl, rfl, rfl, ?_⟩
  intro i
  show Buffer.view _ i = _
  rw [Buffer.pview_eq (hd' _) hu]

theorem Segment.ready_pview {s : Segment U} (h : s.WF) (hr : s.Ready) :
    ∃ b, s.props = some b ∧ POk s.capacity (b.value, b.bits) ∧ pview s.capacity (b.value, b.bits) = s.view := by
  obtain ⟨b, hb, hu⟩ := hr
  refine ⟨b, hb, ⟨(h.dims b hb).value, by rw [← h.ni]; exact (h.dims b hb).bits, h.tail b hb hu⟩, ?_⟩
  rw [← Buffer.pview_eq (h.dims b hb) hu]
  unfold Segment.view
  rw [hb]

/-- `mult_segment` adds the contributions of a tile to the segment of `y`. -/
theorem multSegment_spec {t : Tile E} {P : Nat → List (Col E)} (h : t.Rep P) {sx : Segment T} {sy : Segment U}
    (hx : sx.WF) (rx : sx.Ready) (hy : sy.WF) (cx : sx.capacity = t.n) (cy : sy.capacity = t.m)
    (g : Fresh U) (tmp : Nat → Nat → U) {mul : Nat → Nat → E → T → U → U} {pm : E → T → U}
    (hm : ∀ p nz e x old, mul p nz e x old = pm e x) (add : U → U → U) :
    ∃ sy', multSegment g tmp mul add t sx sy = some sy' ∧ sy'.WF ∧ sy'.Ready ∧ sy'.capacity = sy.capacity ∧
      sy'.received = sy.received ∧ sy'.pool = sy.pool ∧
      ∀ i, sy'.view i = accum add (sy.view i) (contrib sx.view (fun _ => pm) (allEnts t.np P) i) := by
  obtain ⟨b, hb, hu, hd, ht, hv, _⟩ := sy.alloc_initialize hy g
  obtain ⟨bx, x1, x2, x3⟩ := Segment.ready_pview hx rx
  rw [cx] at x2 x3
  unfold multSegment
  rw [hb]
  simp only [Option.bind_eq_bind, Option.bind_some]
  rw [x1, Option.bind_some]
  unfold Tile.spmspv
  rw [h.walk (xs := (bx.value, bx.bits)) x2 (F := fun row a x st => mulAdd (fun a x _ => pm a x) add (tmp 0 0) row a x st) (by
    intro p nz row a x st
    unfold mulAdd
    rw [hm])]
  have hpok : POk t.m (b.value, b.bits) := ⟨by rw [← cy]; exact hd.value, by rw [← cy, ← hy.ni]; exact hd.bits,
    by rw [← cy]; exact ht⟩
  obtain ⟨st', f1, f2, f3⟩ := fold_contrib (cap := t.m) (add := add) (xm := sx.view) (pm := fun _ => pm)
    (F := fun row a x st => mulAdd (fun a x _ => pm a x) add (tmp 0 0) row a x st)
    (fun row a x st hr hst => mulAdd_spec rfl hr hst) (allEnts t.np P)
    (fun x hx => (mem_allEnts_row h hx).1) (b.value, b.bits) hpok
  rw [x3, f1, Option.bind_some]
  obtain ⟨s', s1, s2, s3, s4, s5, s6, s7⟩ := storeResult_spec (s := { sy with props := some b })
    (hy.congr_props hd (fun _ => ht)) (b := b) hd hu (st := st') (by rw [cy]; exact f2)
  refine ⟨s', s1, s2, s3, s4, s5, s6, ?_⟩
  intro i
  rw [s7]
  show pview sy.capacity st' i = _
  rw [cy, f3, ← hv, Buffer.pview_eq hd hu, cy]

/-- `mult_segment3` adds the contributions of a tile to the segment of `y`. -/
theorem multSegment3_spec {t : Tile E} {P : Nat → List (Col E)} (h : t.Rep P) {sx : Segment T} {sv : Segment V}
    {sy : Segment U} (hx : sx.WF) (rx : sx.Ready) (hv : sv.WF) (rv : sv.Ready) (hy : sy.WF)
    (cx : sx.capacity = t.n) (cv : sv.capacity = t.m) (cy : sy.capacity = t.m) {vm : Nat → V}
    (hvm : ∀ i, i < t.m → sv.view i = some (vm i))
    (g : Fresh U) (tmp : Nat → Nat → U) {mul : E → T → V → U → U} {pm : E → T → V → U}
    (hm : ∀ e x v old, mul e x v old = pm e x v) (add : U → U → U) :
    ∃ sy', multSegment3 g tmp mul add t sx sv sy = some sy' ∧ sy'.WF ∧ sy'.Ready ∧ sy'.capacity = sy.capacity ∧
      sy'.received = sy.received ∧ sy'.pool = sy.pool ∧
      ∀ i, sy'.view i = accum add (sy.view i)
        (contrib sx.view (fun row e x => pm e x (vm row)) (allEnts t.np P) i) := by
  obtain ⟨b, hb, hu, hd, ht, hbv, _⟩ := sy.alloc_initialize hy g
  obtain ⟨bx, x1, x2, x3⟩ := Segment.ready_pview hx rx
  obtain ⟨bv, v1, v2, v3⟩ := Segment.ready_pview hv rv
  rw [cx] at x2 x3
  rw [cv] at v2 v3
  unfold multSegment3
  rw [hb]
  simp only [Option.bind_eq_bind, Option.bind_some]
  rw [x1, Option.bind_some, v1, Option.bind_some]
  unfold Tile.spmspv3
  rw [h.walk (xs := (bx.value, bx.bits)) x2
    (F := fun row a x st => mulAdd3 mul add (st.1.get 0) bv.value bv.bits row a x st) (by
    intro p nz row a x st
    unfold mulAdd3
    simp only [hm])]
  have hpok : POk t.m (b.value, b.bits) := ⟨by rw [← cy]; exact hd.value, by rw [← cy, ← hy.ni]; exact hd.bits,
    by rw [← cy]; exact ht⟩
  obtain ⟨st', f1, f2, f3⟩ := fold_contrib (cap := t.m) (add := add) (xm := sx.view)
    (pm := fun row e x => pm e x (vm row))
    (F := fun row a x st => mulAdd3 mul add (st.1.get 0) bv.value bv.bits row a x st)
    (fun row a x st hr hst => mulAdd3_spec (vs := (bv.value, bv.bits)) (v := vm row) (fun old => hm _ _ _ old) v2
      (by rw [v3]; exact hvm row hr) hr hst) (allEnts t.np P)
    (fun x hx => (mem_allEnts_row h hx).1) (b.value, b.bits) hpok
  rw [x3, f1, Option.bind_some]
  obtain ⟨s', s1, s2, s3, s4, s5, s6, s7⟩ := storeResult_spec (s := { sy with props := some b })
    (hy.congr_props hd (fun _ => ht)) (b := b) hd hu (st := st') (by rw [cy]; exact f2)
  refine ⟨s', s1, s2, s3, s4, s5, s6, ?_⟩
  intro i
  rw [s7]
  show pview sy.capacity st' i = _
  rw [cy, f3, ← hbv, Buffer.pview_eq hd hu, cy]

end GraphMat

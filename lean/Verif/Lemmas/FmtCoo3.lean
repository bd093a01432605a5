import Verif.Lemmas.FmtHybrid

/-!
# `mult_segment3` for COO tiles

The kernel with vertex properties does what the kernel without them does for a tile whose values are paired with the property of
their row.
-/
namespace GraphMat

variable {E T U V : Type}

/-- The tile with the vertex property of the row beside each value. -/
def COO.paired (t : COO E) (vm : Nat → V) : COO (E × V) :=
  ⟨t.m, t.n, t.nnz, t.np, ⟨t.a.size, fun k => (t.a.get k, vm (t.ia.get k - 1).toNat)⟩, t.ja, t.ia, t.ps, t.simd⟩

theorem COO.Ok.paired {t : COO E} {ent : Nat → Nat × Nat × E} (h : t.Ok ent) (vm : Nat → V) :
    (t.paired vm).Ok (fun k => ((ent k).1, (ent k).2.1, ((ent k).2.2, vm (ent k).1))) := by
  refine ⟨h.asz, h.jsz, h.isz, ?_, h.col, h.row, h.coln, h.rowm⟩
  intro k hk
  show (t.a.get k, vm (t.ia.get k - 1).toNat) = ((ent k).2.2, vm (ent k).1)
  rw [h.val k hk, h.row k hk]
  congr 2
  omega

theorem COO.Parts.paired {t : COO E} (h : t.Parts) (vm : Nat → V) : (t.paired vm).Parts := ⟨h.psz, h.p0, h.pm, h.pmono⟩

/-- One entry: the property is read where it exists. -/
theorem cooEntry3_eq {t : COO E} {ent : Nat → Nat × Nat × E} (h : t.Ok ent) {xs : Arr T × Arr Word} {vs : Arr V × Arr Word}
    (hv : POk t.m vs) {vm : Nat → V} (hvm : ∀ i, i < t.m → pview t.m vs i = some (vm i)) (mul : E → T → V → U → U)
    (add : U → U → U) (old : Nat → U) {k : Nat} (hk : k < t.nnz) (st : Arr U × Arr Word) :
    cooEntry3 t mul add old xs.1 xs.2 vs.1 vs.2 k st =
      cooEntry (t.paired vm) (fun ev x o => mul ev.1 x ev.2 o) add old xs.1 xs.2 k st := by
  have hr := h.rowm k hk
  have h1 : t.ia.read k = some (t.ia.get k) := Arr.read_some (by rw [h.isz]; exact hk)
  have h2 : natIdx (t.ia.get k - 1) = some (ent k).1 := natIdx_one (h.row k hk)
  have h3 : t.a.read k = some (ent k).2.2 := by rw [Arr.read_some (by rw [h.asz]; exact hk), h.val k hk]
  have h4 : (t.paired vm).a.read k = some ((ent k).2.2, vm (ent k).1) := by
    rw [Arr.read_some (by show k < t.a.size; rw [h.asz]; exact hk), (h.paired vm).val k hk]
  obtain ⟨b1, b2⟩ := pview_cases hv hr
  have hview := hvm _ hr
  obtain ⟨b3, b4⟩ : bitAt vs.2 (ent k).1 = true ∧ vs.1.read (ent k).1 = some (vm (ent k).1) := by
    rcases b2 with ⟨b2, b3, b4⟩ | ⟨b2, b4⟩
    · rw [hview] at b4
      injection b4 with b4
      exact ⟨b2, by rw [b3, b4]⟩
    · rw [hview] at b4
      cases b4
  unfold cooEntry3 cooEntry
  simp only [Option.bind_eq_bind]
  show (t.ia.read k).bind _ = (t.ia.read k).bind _
  rw [h1, Option.bind_some, Option.bind_some, h2, Option.bind_some, Option.bind_some]
  show (t.ja.read k).bind _ = (t.ja.read k).bind _
  congr 1
  funext j
  congr 1
  funext col
  congr 1
  funext xbit
  cases xbit with
  | false => rfl
  | true =>
    rw [if_pos rfl, if_pos rfl, b4, Option.bind_some, b1, Option.bind_some, b3, h3, h4]
    rfl

/-- The whole kernel. -/
theorem COO.spmspv3_eq {t : COO E} {ent : Nat → Nat × Nat × E} (h : t.Ok ent) (hp : t.Parts) {xs : Arr T × Arr Word}
    {vs : Arr V × Arr Word} (hv : POk t.m vs) {vm : Nat → V} (hvm : ∀ i, i < t.m → pview t.m vs i = some (vm i))
    (mul : E → T → V → U → U) (add : U → U → U) (old : Nat → U) (st : Arr U × Arr Word) :
    t.spmspv3 mul add old xs.1 xs.2 vs.1 vs.2 st =
      (t.paired vm).spmspv (fun ev x o => mul ev.1 x ev.2 o) add old xs.1 xs.2 st := by
  unfold COO.spmspv3 COO.spmspv
  refine forLoop_congr ?_
  intro p st _ hpp
  simp only [Option.bind_eq_bind]
  show (t.ps.read p).bind _ = (t.ps.read p).bind _
  have hpp : p < t.np := hpp
  have h2 := mono_le hp.pmono (show p + 1 ≤ t.np by omega) (Nat.le_refl _)
  rw [hp.pm] at h2
  rw [Arr.read_some (by rw [hp.psz]; omega), Option.bind_some, Option.bind_some]
  show (t.ps.read (p + 1)).bind _ = (t.ps.read (p + 1)).bind _
  rw [Arr.read_some (by rw [hp.psz]; omega), Option.bind_some, Option.bind_some]
  refine forLoop_congr ?_
  intro k st _ hk
  exact cooEntry3_eq h hv hvm mul add old (by omega) st

/-- What the pairs contribute to a row. -/
theorem contrib_paired (xm : Nat → Option T) (pm : E → T → V → U) (vm : Nat → V) (l : List (Nat × Nat × E)) (i : Nat) :
    contrib xm (fun _ ev x => pm ev.1 x ev.2) (l.map (fun e => (e.1, e.2.1, (e.2.2, vm e.1)))) i =
      contrib xm (fun _ e x => pm e x (vm i)) l i := by
  unfold contrib
  rw [List.filterMap_map]
  apply List.filterMap_congr
  intro e _
  show (if e.1 = i then _ else none) = _
  by_cases he : e.1 = i
  · subst he; rfl
  · rw [if_neg he, if_neg he]

theorem COO.mult3_spec {t : COO E} {m n : Nat} {l : List (Nat × Nat × E)} (h : t.Holds m n l) (hn : 0 < t.nnz)
    {sx : Segment T} {sv : Segment V} {sy : Segment U} (hx : sx.WF) (rx : sx.Ready) (hv : sv.WF) (rv : sv.Ready) (hy : sy.WF)
    (cx : sx.capacity = n) (cv : sv.capacity = m) (cy : sy.capacity = m) {vm : Nat → V}
    (hvm : ∀ i, i < m → sv.view i = some (vm i)) (g : Fresh U) (old : Nat → U) {mul : E → T → V → U → U}
    {pm : E → T → V → U} (hm : ∀ e x v old, mul e x v old = pm e x v) (add : U → U → U) :
    ∃ sy', t.mult3 g old mul add sx sv sy = some sy' ∧ sy'.WF ∧ sy'.Ready ∧ sy'.capacity = m ∧
      ∀ i, sy'.view i = accum add (sy.view i) (contrib sx.view (fun _ e x => pm e x (vm i)) l i) := by
  obtain ⟨h1, h2, h3, h4⟩ := h
  rcases h4 with h4 | ⟨ent, h4, h4', h5⟩
  · omega
  obtain ⟨bx, x1, x2, x3⟩ := Segment.ready_pview hx rx
  obtain ⟨bv, v1, v2, v3⟩ := Segment.ready_pview hv rv
  rw [cx, ← h2] at x2 x3
  rw [cv, ← h1] at v2 v3
  have key := COO.spmspv_adds (h4.paired vm) (h4'.paired vm) (xs := (bx.value, bx.bits)) x2
    (mul := fun ev x o => mul ev.1 x ev.2 o) (pm := fun ev x => pm ev.1 x ev.2) (fun e x o => hm _ _ _ _) add old
  have hker : KernelAdds m add sx.view (fun (ev : E × V) x => pm ev.1 x ev.2)
      ((fun (sx : Segment T) (st : Arr U × Arr Word) => if t.nnz > 0 then do
        let bx ← sx.props
        let bv ← sv.props
        t.spmspv3 mul add old bx.value bx.bits bv.value bv.bits st else none) sx)
      (l.map (fun e => (e.1, e.2.1, (e.2.2, vm e.1)))) := by
    rw [← h1, ← x3, ← h5, List.map_map]
    refine KernelAdds.congr key ?_
    intro st _
    simp only [Option.bind_eq_bind]
    rw [if_pos hn, x1, Option.bind_some, v1, Option.bind_some]
    exact COO.spmspv3_eq h4 h4' (xs := (bx.value, bx.bits)) (vs := (bv.value, bv.bits)) v2
      (fun i hi => by rw [v3]; exact hvm i (by omega)) mul add old st
  obtain ⟨sy', s1, s2, s3, s4, s5⟩ := multWith_spec (sx := sx) (kernel := fun (sx : Segment T) (st : Arr U × Arr Word) =>
    if t.nnz > 0 then do
      let bx ← sx.props
      let bv ← sv.props
      t.spmspv3 mul add old bx.value bx.bits bv.value bv.bits st else none) hy cy g hker
  refine ⟨sy', s1, s2, s3, by rw [s4, cy], ?_⟩
  intro i
  rw [s5, contrib_paired]

end GraphMat

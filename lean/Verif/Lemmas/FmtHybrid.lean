import Verif.Lemmas.FmtSimd

/-!
# The constructor of hybrid tiles
-/
namespace GraphMat

variable {E T U α : Type}

/-- The number of entries in the rows before `i` that have less than 16 entries. -/
def smallTo (c : Nat → Nat) : Nat → Nat
  | 0 => 0
  | i + 1 => smallTo c i + (if c (i + 1) - c i < 16 then c (i + 1) - c i else 0)

/-- The number of entries in the rows before `i` that have at least 16 entries. -/
def largeTo (c : Nat → Nat) : Nat → Nat
  | 0 => 0
  | i + 1 => largeTo c i + (if c (i + 1) - c i < 16 then 0 else c (i + 1) - c i)

theorem small_large {c : Nat → Nat} {m : Nat} (h0 : c 0 = 0) (hm : ∀ i, i < m → c i ≤ c (i + 1)) {i : Nat} (hi : i ≤ m) :
    largeTo c i + smallTo c i = c i := by
  induction i with
  | zero => simp [smallTo, largeTo, h0]
  | succ i ih =>
    have h1 := ih (by omega)
    have h2 := hm i (by omega)
    show largeTo c i + (if c (i + 1) - c i < 16 then 0 else c (i + 1) - c i) +
      (smallTo c i + (if c (i + 1) - c i < 16 then c (i + 1) - c i else 0)) = c (i + 1)
    split <;> omega

theorem smallTo_mono {c : Nat → Nat} {i j : Nat} (h : i ≤ j) : smallTo c i ≤ smallTo c j :=
  mono_le (c := smallTo c) (m := j) (fun k _ => by
    show smallTo c k ≤ smallTo c k + _
    omega) h (Nat.le_refl _)

theorem largeTo_mono {c : Nat → Nat} {i j : Nat} (h : i ≤ j) : largeTo c i ≤ largeTo c j :=
  mono_le (c := largeTo c) (m := j) (fun k _ => by
    show largeTo c k ≤ largeTo c k + _
    omega) h (Nat.le_refl _)

theorem hybridCounts_spec (g1 g2 : Nat → Nat) {m : Nat} {ia : Arr Nat} {c : Nat → Nat} (hsz : ia.size = m + 1)
    (hptr : ∀ i, i ≤ m → ia.get i = c i + 1) :
    ∃ lt ge, hybridCounts g1 g2 m ia = some (lt, ge) ∧ lt.size = m + 1 ∧ ge.size = m + 1 ∧
      ∀ i, i ≤ m → lt.get i = smallTo c i ∧ ge.get i = largeTo c i := by
  unfold hybridCounts
  simp only [Option.bind_eq_bind]
  rw [Arr.write_some (by show 0 < m + 1; omega), Option.bind_some, Arr.write_some (by show 0 < m + 1; omega),
    Option.bind_some]
  obtain ⟨st, h1, h2, h3, h4⟩ := forLoop_inv (σ := Arr Nat × Arr Nat) (lo := 0) (hi := m)
    (s := ((⟨m + 1, g1⟩ : Arr Nat).upd 0 0, (⟨m + 1, g2⟩ : Arr Nat).upd 0 0))
    (body := fun i st => (ia.read (i + 1)).bind fun hi => (ia.read i).bind fun lo => (st.1.read i).bind fun l =>
      (st.2.read i).bind fun b => if hi - lo < 16 then
        (st.1.write (i + 1) (l + (hi - lo))).bind fun lt => (st.2.write (i + 1) b).bind fun ge => some (lt, ge)
      else (st.2.write (i + 1) (b + (hi - lo))).bind fun ge => (st.1.write (i + 1) l).bind fun lt => some (lt, ge))
    (fun i st => st.1.size = m + 1 ∧ st.2.size = m + 1 ∧
      ∀ j, j ≤ i → st.1.get j = smallTo c j ∧ st.2.get j = largeTo c j) (by omega)
    ⟨rfl, rfl, fun j hj => by
      have : j = 0 := by omega
      subst this
      exact ⟨Arr.upd_get_self _ _ _, Arr.upd_get_self _ _ _⟩⟩ (by
      intro i st _ hi hinv
      obtain ⟨i1, i2, i3⟩ := hinv
      rw [Arr.read_some (by omega), Option.bind_some, Arr.read_some (by omega), Option.bind_some,
        Arr.read_some (by omega), Option.bind_some, Arr.read_some (by omega), Option.bind_some, hptr i (by omega),
        hptr (i + 1) (by omega), (i3 i (Nat.le_refl _)).1, (i3 i (Nat.le_refl _)).2]
      have e : c (i + 1) + 1 - (c i + 1) = c (i + 1) - c i := by omega
      rw [e]
      by_cases hk : c (i + 1) - c i < 16
      · rw [if_pos hk, Arr.write_some (by omega), Option.bind_some, Arr.write_some (by omega), Option.bind_some]
        refine ⟨_, rfl, i1, i2, ?_⟩
        intro j hj
        dsimp only
        by_cases hji : j = i + 1
        · subst hji
          rw [Arr.upd_get_self, Arr.upd_get_self]
          constructor
          · show _ = smallTo c i + _
            rw [if_pos hk]
          · show _ = largeTo c i + _
            rw [if_pos hk]; rfl
        · rw [Arr.upd_get_ne _ _ hji, Arr.upd_get_ne _ _ hji]
          exact i3 j (by omega)
      · rw [if_neg hk, Arr.write_some (by omega), Option.bind_some, Arr.write_some (by omega), Option.bind_some]
        refine ⟨_, rfl, i1, i2, ?_⟩
        intro j hj
        dsimp only
        by_cases hji : j = i + 1
        · subst hji
          rw [Arr.upd_get_self, Arr.upd_get_self]
          constructor
          · show _ = smallTo c i + _
            rw [if_neg hk]; rfl
          · show _ = largeTo c i + _
            rw [if_neg hk]
        · rw [Arr.upd_get_ne _ _ hji, Arr.upd_get_ne _ _ hji]
          exact i3 j (by omega))
  exact ⟨st.1, st.2, h1, h2, h3, h4⟩

/-- The first `k` elements of an array. -/
def Arr.upTo (a : Arr α) (k : Nat) : List α := (List.range k).map a.get

theorem copyEdges_spec {es : List (Edge E)} {out : Arr (Edge E)} {pos src k : Nat} (hs : src + k ≤ es.length)
    (hp : pos + k ≤ out.size) :
    ∃ out', copyEdges es out pos src k = some out' ∧ out'.size = out.size ∧
      out'.upTo (pos + k) = out.upTo pos ++ (es.drop src).take k := by
  unfold copyEdges
  simp only [Option.bind_eq_bind]
  obtain ⟨out', h1, h2, h3⟩ := forLoop_inv (σ := Arr (Edge E)) (lo := 0) (hi := k) (s := out)
    (body := fun i out => (es[src + i]?).bind fun e => out.write (pos + i) e)
    (fun i o => o.size = out.size ∧ o.upTo (pos + i) = out.upTo pos ++ (es.drop src).take i) (by omega)
    ⟨rfl, by simp⟩ (by
      intro i o _ hi hinv
      rw [List.getElem?_eq_getElem (by omega), Option.bind_some, Arr.write_some (by rw [hinv.1]; omega)]
      refine ⟨_, rfl, hinv.1, ?_⟩
      have e1 : (es.drop src).take (i + 1) = (es.drop src).take i ++ [es[src + i]] := by
        rw [List.take_add_one]
        congr 1
        rw [List.getElem?_drop, List.getElem?_eq_getElem (by omega)]; rfl
      rw [e1, ← List.append_assoc, ← hinv.2]
      unfold Arr.upTo
      rw [← Nat.add_assoc, List.range_succ, List.map_append, List.map_singleton, Arr.upd_get_self]
      congr 1
      apply List.map_congr_left
      intro q hq
      rw [List.mem_range] at hq
      exact Arr.upd_get_ne _ _ (by omega))
  exact ⟨out', h1, h2, h3⟩

/-- The edges of row `i`. -/
def rowSlice (es : List (Edge E)) (c : Nat → Nat) (i : Nat) : List (Edge E) := (es.drop (c i)).take (c (i + 1) - c i)

/-- The edges in the rows before `i` that have less than 16 entries. -/
def smallRows (es : List (Edge E)) (c : Nat → Nat) (i : Nat) : List (Edge E) :=
  (List.range i).flatMap (fun j => if c (j + 1) - c j < 16 then rowSlice es c j else [])

/-- The edges in the rows before `i` that have at least 16 entries. -/
def largeRows (es : List (Edge E)) (c : Nat → Nat) (i : Nat) : List (Edge E) :=
  (List.range i).flatMap (fun j => if c (j + 1) - c j < 16 then [] else rowSlice es c j)

theorem smallRows_succ (es : List (Edge E)) (c : Nat → Nat) (i : Nat) :
    smallRows es c (i + 1) = smallRows es c i ++ (if c (i + 1) - c i < 16 then rowSlice es c i else []) := by
  unfold smallRows
  rw [List.range_succ, List.flatMap_append]; simp

theorem largeRows_succ (es : List (Edge E)) (c : Nat → Nat) (i : Nat) :
    largeRows es c (i + 1) = largeRows es c i ++ (if c (i + 1) - c i < 16 then [] else rowSlice es c i) := by
  unfold largeRows
  rw [List.range_succ, List.flatMap_append]; simp

/-- Together these are all edges, each once. -/
theorem rows_perm {es : List (Edge E)} {c : Nat → Nat} {m : Nat} (h0 : c 0 = 0) (hm : ∀ i, i < m → c i ≤ c (i + 1))
    {i : Nat} (hi : i ≤ m) : (largeRows es c i ++ smallRows es c i).Perm (es.take (c i)) := by
  induction i with
  | zero => rw [h0]; exact List.Perm.refl _
  | succ i ih =>
    have h1 := ih (by omega)
    have h2 := hm i (by omega)
    have e : es.take (c (i + 1)) = es.take (c i) ++ rowSlice es c i := by
      unfold rowSlice
      have e1 : c (i + 1) = c i + (c (i + 1) - c i) := by omega
      conv => lhs; rw [e1]
      rw [List.take_add]
    rw [e, smallRows_succ, largeRows_succ]
    split
    · rw [List.append_nil, ← List.append_assoc]
      exact List.Perm.append_right _ h1
    · rw [List.append_nil, List.append_assoc]
      refine (List.Perm.append_left _ List.perm_append_comm).trans ?_
      rw [← List.append_assoc]
      exact List.Perm.append_right _ h1

theorem hybridSplit_spec {es : List (Edge E)} {m : Nat} {ia lt ge : Arr Nat} {c : Nat → Nat}
    (hsz : ia.size = m + 1) (hptr : ∀ i, i ≤ m → ia.get i = c i + 1)
    (hm : ∀ i, i < m → c i ≤ c (i + 1)) (hcm : c m = es.length)
    (hlt : lt.size = m + 1) (hge : ge.size = m + 1)
    (hlg : ∀ i, i ≤ m → lt.get i = smallTo c i ∧ ge.get i = largeTo c i) (g1 g2 : Nat → Edge E) :
    ∃ st, hybridSplit es m ia lt ge (⟨smallTo c m, g1⟩, ⟨largeTo c m, g2⟩) = some st ∧
      st.1.toList = smallRows es c m ∧ st.2.toList = largeRows es c m := by
  unfold hybridSplit
  simp only [Option.bind_eq_bind]
  obtain ⟨st, h1, h2, h3, h4, h5⟩ := forLoop_inv (σ := Arr (Edge E) × Arr (Edge E)) (lo := 0) (hi := m)
    (s := (⟨smallTo c m, g1⟩, ⟨largeTo c m, g2⟩))
    (body := fun i st => (ia.read (i + 1)).bind fun hi => (ia.read i).bind fun lo => (pred1 lo).bind fun src =>
      if hi - lo < 16 then (lt.read i).bind fun l => if l + (hi - lo) ≤ st.1.size then
          (copyEdges es st.1 l src (hi - lo)).bind fun o => some (o, st.2)
        else none
      else (ge.read i).bind fun b => if b + (hi - lo) ≤ st.2.size then
          (copyEdges es st.2 b src (hi - lo)).bind fun o => some (st.1, o)
        else none)
    (fun i st => st.1.size = smallTo c m ∧ st.2.size = largeTo c m ∧ st.1.upTo (smallTo c i) = smallRows es c i ∧
      st.2.upTo (largeTo c i) = largeRows es c i) (by omega) ⟨rfl, rfl, rfl, rfl⟩ (by
      intro i st _ hi hinv
      obtain ⟨i1, i2, i3, i4⟩ := hinv
      have hmi := hm i hi
      have hle : c (i + 1) ≤ es.length := by rw [← hcm]; exact mono_le hm (by omega) (Nat.le_refl _)
      rw [Arr.read_some (by omega), Option.bind_some, Arr.read_some (by omega), Option.bind_some, hptr i (by omega),
        hptr (i + 1) (by omega)]
      simp only [pred1, Option.bind_some]
      have e : c (i + 1) + 1 - (c i + 1) = c (i + 1) - c i := by omega
      rw [e]
      by_cases hk : c (i + 1) - c i < 16
      · have hs : smallTo c (i + 1) = smallTo c i + (c (i + 1) - c i) := by
          show smallTo c i + _ = _
          rw [if_pos hk]
        have hl : largeTo c (i + 1) = largeTo c i := by
          show largeTo c i + _ = _
          rw [if_pos hk]; rfl
        have hmono := smallTo_mono (c := c) (i := i + 1) (j := m) (by omega)
        rw [if_pos hk, Arr.read_some (by omega), Option.bind_some, (hlg i (by omega)).1, if_pos (by omega)]
        obtain ⟨o, o1, o2, o3⟩ := copyEdges_spec (es := es) (out := st.1) (pos := smallTo c i) (src := c i)
          (k := c (i + 1) - c i) (by omega) (by omega)
        rw [o1, Option.bind_some]
        refine ⟨_, rfl, by dsimp only; omega, i2, ?_, ?_⟩
        · dsimp only
          rw [hs, o3, i3, smallRows_succ, if_pos hk]; rfl
        · dsimp only
          rw [hl, i4, largeRows_succ, if_pos hk, List.append_nil]
      · have hs : smallTo c (i + 1) = smallTo c i := by
          show smallTo c i + _ = _
          rw [if_neg hk]; rfl
        have hl : largeTo c (i + 1) = largeTo c i + (c (i + 1) - c i) := by
          show largeTo c i + _ = _
          rw [if_neg hk]
        have hmono := largeTo_mono (c := c) (i := i + 1) (j := m) (by omega)
        rw [if_neg hk, Arr.read_some (by omega), Option.bind_some, (hlg i (by omega)).2, if_pos (by omega)]
        obtain ⟨o, o1, o2, o3⟩ := copyEdges_spec (es := es) (out := st.2) (pos := largeTo c i) (src := c i)
          (k := c (i + 1) - c i) (by omega) (by omega)
        rw [o1, Option.bind_some]
        refine ⟨_, rfl, i1, by dsimp only; omega, ?_, ?_⟩
        · dsimp only
          rw [hs, i3, smallRows_succ, if_neg hk, List.append_nil]
        · dsimp only
          rw [hl, o3, i4, largeRows_succ, if_neg hk]; rfl)
  refine ⟨st, h1, ?_, ?_⟩
  · rw [← h4, ← h2]; rfl
  · rw [← h5, ← h3]; rfl

/-! ### Tiles and the entries they hold -/

/-- The CSR tile holds the entries `l`. -/
def CSR.Holds (t : CSR E) (m n : Nat) (l : List (Nat × Nat × E)) : Prop :=
  t.m = m ∧ t.n = n ∧ t.nnz = l.length ∧ (t.nnz = 0 ∨ ∃ c ent, t.Ok c ent ∧ (List.range t.nnz).map ent = l)

/-- The DCSR tile holds the entries `l`. -/
def DCSR.Holds (t : DCSR E) (m n : Nat) (l : List (Nat × Nat × E)) : Prop :=
  t.m = m ∧ t.n = n ∧ t.nnz = l.length ∧ (t.nnz = 0 ∨ ∃ r c ent, t.Ok r c ent ∧ (List.range t.nnz).map ent = l)

/-- The COO tile holds the entries `l`. -/
def COO.Holds (t : COO E) (m n : Nat) (l : List (Nat × Nat × E)) : Prop :=
  t.m = m ∧ t.n = n ∧ t.nnz = l.length ∧ (t.nnz = 0 ∨ ∃ ent, t.Ok ent ∧ t.Parts ∧ (List.range t.nnz).map ent = l)

/-- The hybrid tile holds the entries `l`. -/
def Hybrid.Holds (t : Hybrid E) (m n : Nat) (l : List (Nat × Nat × E)) : Prop :=
  t.m = m ∧ t.n = n ∧ t.nnz = l.length ∧ ∃ t1 t2 l1 l2, t.t1 = some t1 ∧ t.t2 = some t2 ∧ t1.Holds m n l1 ∧
    t2.Holds m n l2 ∧ l = l1 ++ l2

theorem CSR.Holds.getEdges {t : CSR E} {m n : Nat} {l : List (Nat × Nat × E)} (h : t.Holds m n l) (g : Nat → Edge E)
    (rs cs : Nat) : t.getEdges g rs cs = some (l.map (unlocal rs cs)) := by
  obtain ⟨_, _, h3, h4⟩ := h
  rcases h4 with h4 | ⟨c, ent, h4, h5⟩
  · have hl : l = [] := List.length_eq_zero_iff.mp (by omega)
    unfold CSR.getEdges Arr.toList
    rw [hl]
    dsimp only
    rw [if_neg (by omega), h4]; rfl
  · rw [h4.getEdges, ← h5, List.map_map]; rfl

theorem DCSR.Holds.getEdges {t : DCSR E} {m n : Nat} {l : List (Nat × Nat × E)} (h : t.Holds m n l) (g : Nat → Edge E)
    (rs cs : Nat) : t.getEdges g rs cs = some (l.map (unlocal rs cs)) := by
  obtain ⟨_, _, h3, h4⟩ := h
  rcases h4 with h4 | ⟨r, c, ent, h4, h5⟩
  · have hl : l = [] := List.length_eq_zero_iff.mp (by omega)
    unfold DCSR.getEdges Arr.toList
    rw [hl]
    dsimp only
    rw [if_neg (by omega), h4]; rfl
  · rw [h4.getEdges, ← h5, List.map_map]; rfl

theorem COO.Holds.getEdges {t : COO E} {m n : Nat} {l : List (Nat × Nat × E)} (h : t.Holds m n l)
    (rs cs : Nat) : t.getEdges rs cs = some (l.map (unlocal rs cs)) := by
  obtain ⟨_, _, h3, h4⟩ := h
  rcases h4 with h4 | ⟨ent, h4, _, h5⟩
  · have hl : l = [] := List.length_eq_zero_iff.mp (by omega)
    unfold COO.getEdges
    rw [hl, h4]; rfl
  · rw [h4.getEdges, ← h5, List.map_map]; rfl

theorem Hybrid.Holds.getEdges {t : Hybrid E} {m n : Nat} {l : List (Nat × Nat × E)} (h : t.Holds m n l)
    (g : Nat → Edge E) (rs cs : Nat) : t.getEdges g rs cs = some (l.map (unlocal rs cs)) := by
  obtain ⟨_, _, h3, t1, t2, l1, l2, h4, h5, h6, h7, h8⟩ := h
  unfold Hybrid.getEdges
  simp only [Option.bind_eq_bind]
  by_cases hn : t.nnz > 0
  · rw [if_pos hn, h4, Option.bind_some, h5, Option.bind_some, h6.getEdges, Option.bind_some, h7.getEdges,
      Option.bind_some, h8, List.map_append]
  · have hl : l = [] := List.length_eq_zero_iff.mp (by omega)
    rw [if_neg hn, hl]; rfl

theorem CSR.Holds.adds {t : CSR E} {m n : Nat} {l : List (Nat × Nat × E)} (h : t.Holds m n l) {sx : Segment T}
    (hx : sx.WF) (rx : sx.Ready) (cx : sx.capacity = n) {threads : Nat} (ht : 0 < threads) {mul : E → T → U → U}
    {pm : E → T → U} (hm : ∀ e x old, mul e x old = pm e x) (add : U → U → U) (old : Nat → U) :
    KernelAdds m add sx.view pm (fun st => if t.nnz > 0 then (sx.props).bind fun bx =>
      t.spmspv threads mul add old bx.value bx.bits st else some st) l := by
  obtain ⟨h1, h2, h3, h4⟩ := h
  by_cases hn : t.nnz > 0
  · rcases h4 with h4 | ⟨c, ent, h4, h5⟩
    · omega
    · obtain ⟨bx, x1, x2, x3⟩ := Segment.ready_pview hx rx
      rw [cx, ← h2] at x2 x3
      have hv : sx.view = pview t.n (bx.value, bx.bits) := x3.symm
      rw [hv, ← h1, ← h5]
      refine (CSR.spmspv_adds h4 x2 hm add old ht).congr ?_
      intro st _
      rw [if_pos hn, x1, Option.bind_some]
  · have hl : l = [] := List.length_eq_zero_iff.mp (by omega)
    rw [hl]
    refine KernelAdds.nil.congr ?_
    intro st _
    rw [if_neg hn]

theorem DCSR.Holds.adds {t : DCSR E} {m n : Nat} {l : List (Nat × Nat × E)} (h : t.Holds m n l) {sx : Segment T}
    (hx : sx.WF) (rx : sx.Ready) (cx : sx.capacity = n) {mul : E → T → U → U}
    {pm : E → T → U} (hm : ∀ e x old, mul e x old = pm e x) (add : U → U → U) (old : Nat → U) :
    KernelAdds m add sx.view pm (t.kernel old mul add sx) l := by
  obtain ⟨h1, h2, h3, h4⟩ := h
  unfold DCSR.kernel
  simp only [Option.bind_eq_bind]
  by_cases hn : t.nnz > 0
  · rcases h4 with h4 | ⟨r, c, ent, h4, h5⟩
    · omega
    · obtain ⟨bx, x1, x2, x3⟩ := Segment.ready_pview hx rx
      rw [cx, ← h2] at x2 x3
      have hv : sx.view = pview t.n (bx.value, bx.bits) := x3.symm
      rw [hv, ← h1, ← h5]
      refine (DCSR.spmspv_adds h4 x2 hm add old).congr ?_
      intro st _
      rw [if_pos hn, x1, Option.bind_some]
  · have hl : l = [] := List.length_eq_zero_iff.mp (by omega)
    rw [hl]
    refine KernelAdds.nil.congr ?_
    intro st _
    rw [if_neg hn]

theorem COO.Holds.adds {t : COO E} {m n : Nat} {l : List (Nat × Nat × E)} (h : t.Holds m n l) {sx : Segment T}
    (hx : sx.WF) (rx : sx.Ready) (cx : sx.capacity = n) {mul : E → T → U → U}
    {pm : E → T → U} (hm : ∀ e x old, mul e x old = pm e x) (add : U → U → U) (old : Nat → U) :
    KernelAdds m add sx.view pm (fun st => if t.nnz > 0 then (sx.props).bind fun bx =>
      t.spmspv mul add old bx.value bx.bits st else some st) l := by
  obtain ⟨h1, h2, h3, h4⟩ := h
  by_cases hn : t.nnz > 0
  · rcases h4 with h4 | ⟨ent, h4, h4', h5⟩
    · omega
    · obtain ⟨bx, x1, x2, x3⟩ := Segment.ready_pview hx rx
      rw [cx, ← h2] at x2 x3
      have hv : sx.view = pview t.n (bx.value, bx.bits) := x3.symm
      rw [hv, ← h1, ← h5]
      refine (COO.spmspv_adds h4 h4' x2 hm add old).congr ?_
      intro st _
      rw [if_pos hn, x1, Option.bind_some]
  · have hl : l = [] := List.length_eq_zero_iff.mp (by omega)
    rw [hl]
    refine KernelAdds.nil.congr ?_
    intro st _
    rw [if_neg hn]

theorem Hybrid.Holds.adds {t : Hybrid E} {m n : Nat} {l : List (Nat × Nat × E)} (h : t.Holds m n l) {sx : Segment T}
    (hx : sx.WF) (rx : sx.Ready) (cx : sx.capacity = n) {mul : E → T → U → U}
    {pm : E → T → U} (hm : ∀ e x old, mul e x old = pm e x) (add : U → U → U) (old1 old2 : Nat → U) :
    KernelAdds m add sx.view pm (fun st => (t.t1).bind fun t1 => (t1.kernel old1 mul add sx st).bind fun st =>
      (t.t2).bind fun t2 => if t2.nnz > 0 then (sx.props).bind fun bx =>
        t2.spmspv mul add old2 bx.value bx.bits st else some st) l := by
  obtain ⟨_, _, h3, t1, t2, l1, l2, h4, h5, h6, h7, h8⟩ := h
  rw [h8]
  refine ((h6.adds hx rx cx hm add old1).bind (h7.adds hx rx cx hm add old2)).congr ?_
  intro st _
  rw [h4, Option.bind_some]
  congr 1
  funext st
  rw [h5, Option.bind_some]

/-! ### The constructors -/

theorem CSR.build_holds (g : FmtFresh E) {threads : Nat} (ht : 0 < threads)
    {sort : List (Edge E) → List (Edge E)} (hsort : SortsBy compareSrcDst sort)
    {edges : List (Edge E)} {m n rs cs : Nat} (hin : ∀ e ∈ edges, InTile m n rs cs e) :
    ∃ es t l, CSR.build g threads sort edges m n rs cs = some (es, t) ∧ t.Holds m n l ∧ es.Perm edges ∧
      l.Perm (edges.map (localOf rs cs)) := by
  cases edges with
  | nil =>
    exact ⟨_, _, [], rfl, ⟨rfl, rfl, rfl, .inl rfl⟩, List.Perm.refl _, List.Perm.refl _⟩
  | cons d edges =>
    obtain ⟨t, c, h1, h2, h3, h4, h5⟩ := CSR.build_spec g ht hsort hin d (by simp)
    have hp := (hsort (d :: edges)).1
    refine ⟨_, t, _, h1, ⟨h2, h3, by rw [List.length_map]; exact h4, .inr ⟨c, _, h5, by rw [h4, entOf_map]⟩⟩, hp, hp.map _⟩

theorem DCSR.build_holds {behind : Option Int} (g : FmtFresh E) {threads : Nat} (ht : 0 < threads)
    {sort : List (Edge E) → List (Edge E)} (hsort : SortsBy compareSrcDst sort)
    {edges : List (Edge E)} {m n rs cs : Nat} (hin : ∀ e ∈ edges, InTile m n rs cs e)
    (hb : edges ≠ [] → behind ≠ none) :
    ∃ t l, DCSR.build behind g threads sort edges m n rs cs = some t ∧ t.Holds m n l ∧
      l.Perm (edges.map (localOf rs cs)) := by
  cases edges with
  | nil =>
    exact ⟨_, [], rfl, ⟨rfl, rfl, rfl, .inl rfl⟩, List.Perm.refl _⟩
  | cons d edges =>
    obtain ⟨x, rfl⟩ := Option.ne_none_iff_exists'.mp (hb (by simp))
    obtain ⟨t, r, c, h1, h2, h3, h4, h5⟩ := DCSR.build_spec x g ht hsort hin d (by simp)
    have hp := (hsort (d :: edges)).1
    exact ⟨t, _, h1, ⟨h2, h3, by rw [List.length_map]; exact h4, .inr ⟨r, c, _, h5, by rw [h4, entOf_map]⟩⟩, hp.map _⟩

theorem COO.build_holds {x : Int} (g : FmtFresh E) {threads : Nat} (ht : 0 < threads)
    {sort : List (Edge E) → List (Edge E)} (hsort : SortsBy compareSrcDst sort)
    {edges : List (Edge E)} {m n rs cs : Nat} (hin : ∀ e ∈ edges, InTile m n rs cs e)
    (hx : edges.length = 1 → 1 ≤ x) :
    ∃ t l, COO.build (some x) g threads sort edges m n rs cs = some t ∧ t.Holds m n l ∧
      l.Perm (edges.map (localOf rs cs)) := by
  cases edges with
  | nil =>
    exact ⟨_, [], rfl, ⟨rfl, rfl, rfl, .inl rfl⟩, List.Perm.refl _⟩
  | cons d edges =>
    obtain ⟨t, h1, h2, h3, h4, h5, h6⟩ := COO.build_spec x g ht hsort hin d (by simp) hx
    have hp := (hsort (d :: edges)).1
    exact ⟨t, _, h1, ⟨h2, h3, by rw [List.length_map]; exact h4, .inr ⟨_, h5, h6, by rw [h4, entOf_map]⟩⟩, hp.map _⟩

theorem COO.buildSimd_holds (g : FmtFresh E) {threads : Nat} (ht : 0 < threads)
    {sort : List (TEdge E) → List (TEdge E)} (hsort : SortsBy compareSimd sort)
    {sortBins : Nat → List SimdBin → List SimdBin} (hsb : ∀ p, SortsBy compareBin (sortBins p))
    {edges : List (Edge E)} {m n rs cs : Nat} (hin : ∀ e ∈ edges, InTile m n rs cs e) :
    ∃ t l, COO.buildSimd g threads sort sortBins edges m n rs cs = some t ∧ t.Holds m n l ∧
      l.Perm (edges.map (localOf rs cs)) ∧ t.SimdOk := by
  cases edges with
  | nil =>
    exact ⟨_, [], rfl, ⟨rfl, rfl, rfl, .inl rfl⟩, List.Perm.refl _, fun p hp => absurd hp (Nat.not_lt_zero _)⟩
  | cons d edges =>
    obtain ⟨t, ent, h1, h2, h3, h4, h5, h6, h7, h8⟩ := COO.buildSimd_spec g ht hsort hsb hin (by simp)
    exact ⟨t, _, h1, ⟨h2, h3, by rw [List.length_map, List.length_range], .inr ⟨ent, h5, h6, rfl⟩⟩, h7, h8⟩

/-- The number of edges in row `i`. -/
theorem row_count {es : List (Edge E)} {c : Nat → Nat} {m rs : Nat} (h0 : c 0 = 0) (hcm : c m = es.length)
    (hm : ∀ i, i < m → c i ≤ c (i + 1))
    (hsrc : ∀ i, i < m → ∀ k (hk : k < es.length), c i ≤ k → k < c (i + 1) → es[k].src = (rs : Int) + i + 1)
    {i : Nat} (hi : i < m) : es.countP (fun f => decide (f.src = (rs : Int) + i + 1)) = c (i + 1) - c i := by
  have key : ∀ j, j ≤ m → (es.take (c j)).countP (fun f => decide (f.src = (rs : Int) + i + 1)) =
      if i < j then c (i + 1) - c i else 0 := by
    intro j
    induction j with
    | zero => intro _; rw [h0]; rfl
    | succ j ih =>
      intro hj
      have h1 := ih (by omega)
      have h2 := hm j (by omega)
      have hle : c (j + 1) ≤ es.length := by rw [← hcm]; exact mono_le hm hj (Nat.le_refl _)
      have e : es.take (c (j + 1)) = es.take (c j) ++ rowSlice es c j := by
        unfold rowSlice
        have e1 : c (j + 1) = c j + (c (j + 1) - c j) := by omega
        conv => lhs; rw [e1]
        rw [List.take_add]
      have hlen : (rowSlice es c j).length = c (j + 1) - c j := by
        unfold rowSlice
        rw [List.length_take, List.length_drop]; omega
      have hall : ∀ x ∈ rowSlice es c j, x.src = (rs : Int) + j + 1 := by
        intro x hx
        obtain ⟨q, hq, rfl⟩ := List.mem_iff_getElem.mp hx
        unfold rowSlice at hq ⊢
        rw [List.length_take, List.length_drop] at hq
        rw [List.getElem_take, List.getElem_drop]
        exact hsrc j (by omega) (c j + q) (by omega) (by omega) (by omega)
      rw [e, List.countP_append, h1]
      by_cases hji : j = i
      · subst hji
        rw [if_neg (by omega), if_pos (by omega), List.countP_eq_length.mpr, hlen, Nat.zero_add]
        intro x hx
        rw [decide_eq_true_iff]
        exact hall x hx
      · have hz : (rowSlice es c j).countP (fun f => decide (f.src = (rs : Int) + i + 1)) = 0 := by
          rw [List.countP_eq_zero]
          intro x hx hh
          rw [decide_eq_true_iff] at hh
          have := hall x hx
          omega
        rw [hz, Nat.add_zero]
        by_cases h : i < j
        · rw [if_pos h, if_pos (by omega)]
        · rw [if_neg h, if_neg (by omega)]
  have := key m (Nat.le_refl _)
  rw [hcm, List.take_length, if_pos hi] at this
  exact this

/-- The constructor of hybrid tiles builds a DCSR tile of the edges in rows with at least 16 edges and a COO-SIMD tile of
the others. -/
theorem Hybrid.build_split {behind : Option Int} (g : FmtFresh E) {threads : Nat} (ht : 0 < threads) {s : HybridSorts E}
    (h1 : SortsBy compareSrcDst s.own) (h2 : SortsBy compareSrcDst s.csr)
    {edges : List (Edge E)} {m n rs cs : Nat} (hin : ∀ e ∈ edges, InTile m n rs cs e) (hne : edges ≠ []) :
    ∃ big small, (big ++ small).Perm edges ∧
      (∀ e ∈ big, 16 ≤ edges.countP (fun f => decide (f.src = e.src))) ∧
      (∀ e ∈ small, edges.countP (fun f => decide (f.src = e.src)) < 16) ∧
      ∃ n1, Hybrid.build behind g threads s edges m n rs cs =
        (DCSR.build behind g threads s.dcsr big m n rs cs).bind fun t1 =>
        (COO.buildSimd g threads s.simd s.bins small m n rs cs).bind fun t2 =>
        some ⟨m, n, edges.length, n1, some t1, some t2⟩ := by
  obtain ⟨d, hd⟩ := List.exists_mem_of_ne_nil _ hne
  have hp1 := (h1 edges).1
  have hin1 : ∀ e ∈ s.own edges, InTile m n rs cs e := fun e he => hin e (hp1.mem_iff.mp he)
  have hl1 : 0 < (s.own edges).length := by
    rw [hp1.length_eq]; exact List.length_pos_iff.mpr hne
  obtain ⟨ct, c, c1, c2, c3, c4, c5⟩ := CSR.build_spec g ht h2 hin1 d hl1
  have hp2 := ((h2 (s.own edges)).1).trans hp1
  obtain ⟨es, hes⟩ : ∃ es, es = s.csr (s.own edges) := ⟨_, rfl⟩
  rw [← hes] at c1 c4 c5 hp2
  unfold Hybrid.build
  simp only [Option.bind_eq_bind]
  rw [c1, Option.bind_some]
  dsimp only
  have isz := c5.isz
  have ptr := c5.ptr
  have mono := c5.mono
  have cm := c5.cm
  have crow := c5.row
  rw [c2] at isz ptr mono cm crow
  rw [c4] at cm
  obtain ⟨lt, ge, k1, k2, k3, k4⟩ := hybridCounts_spec (g.nats 7) (g.nats 8) isz ptr
  rw [k1, Option.bind_some]
  dsimp only
  rw [Arr.read_some (by omega), Option.bind_some, Arr.read_some (by omega), Option.bind_some, (k4 m (Nat.le_refl _)).1,
    (k4 m (Nat.le_refl _)).2]
  have hsum := small_large c5.c0 mono (Nat.le_refl m)
  rw [if_neg (by omega)]
  obtain ⟨st, s1, s2, s3⟩ := hybridSplit_spec (es := es) isz ptr mono cm k2 k3 k4 (g.edges 0) (g.edges 1)
  rw [s1, Option.bind_some, s2, s3]
  have hrows := rows_perm (es := es) c5.c0 mono (Nat.le_refl m)
  rw [cm, List.take_length] at hrows
  have hsrc : ∀ i, i < m → ∀ k (hk : k < es.length), c i ≤ k → k < c (i + 1) → es[k].src = (rs : Int) + i + 1 := by
    intro i hi k hk q1 q2
    have hr := crow i hi k q1 q2
    rw [entOf_eq hk] at hr
    have hr : (es[k].src - 1 - rs).toNat = i := hr
    have := (hin _ (hp2.mem_iff.mp (List.getElem_mem hk))).1
    omega
  have hcnt : ∀ i, i < m → ∀ e ∈ rowSlice es c i,
      edges.countP (fun f => decide (f.src = e.src)) = c (i + 1) - c i := by
    intro i hi e he
    have hle : c (i + 1) ≤ es.length := by rw [← cm]; exact mono_le mono hi (Nat.le_refl _)
    have he' : e.src = (rs : Int) + i + 1 := by
      obtain ⟨q, hq, rfl⟩ := List.mem_iff_getElem.mp he
      unfold rowSlice at hq ⊢
      rw [List.length_take, List.length_drop] at hq
      rw [List.getElem_take, List.getElem_drop]
      exact hsrc i hi (c i + q) (by omega) (by omega) (by omega)
    rw [← hp2.countP_eq, he']
    exact row_count c5.c0 cm mono hsrc hi
  refine ⟨largeRows es c m, smallRows es c m, hrows.trans hp2, ?_, ?_, largeTo c m, ?_⟩
  · intro e he
    unfold largeRows at he
    rw [List.mem_flatMap] at he
    obtain ⟨i, hi, he⟩ := he
    rw [List.mem_range] at hi
    split at he
    · cases he
    · rw [hcnt i hi e he]; omega
  · intro e he
    unfold smallRows at he
    rw [List.mem_flatMap] at he
    obtain ⟨i, hi, he⟩ := he
    rw [List.mem_range] at hi
    split at he
    · rw [hcnt i hi e he]; omega
    · cases he
  · rw [hp2.length_eq]

/-- A hybrid tile is correct if the memory behind `row_ids` of its DCSR part is readable, or the DCSR part is empty. -/
theorem Hybrid.build_holds {behind : Option Int} (g : FmtFresh E) {threads : Nat} (ht : 0 < threads) {s : HybridSorts E}
    (h1 : SortsBy compareSrcDst s.own) (h2 : SortsBy compareSrcDst s.csr) (h3 : SortsBy compareSrcDst s.dcsr)
    (h4 : SortsBy compareSimd s.simd) (h5 : ∀ p, SortsBy compareBin (s.bins p))
    {edges : List (Edge E)} {m n rs cs : Nat} (hin : ∀ e ∈ edges, InTile m n rs cs e) (hne : edges ≠ [])
    (hb : behind ≠ none ∨ ∀ e ∈ edges, edges.countP (fun f => decide (f.src = e.src)) < 16) :
    ∃ t l, Hybrid.build behind g threads s edges m n rs cs = some t ∧ t.Holds m n l ∧
      l.Perm (edges.map (localOf rs cs)) := by
  obtain ⟨big, small, p1, p2, p3, n1, p4⟩ := Hybrid.build_split (behind := behind) g ht h1 h2 hin hne
  obtain ⟨t1, l1, a1, a2, a3⟩ := DCSR.build_holds (behind := behind) g ht h3 (edges := big) (m := m) (n := n)
    (rs := rs) (cs := cs) (fun e he => hin e (p1.mem_iff.mp (List.mem_append_left _ he))) (by
      intro hlarge
      rcases hb with hb | hb
      · exact hb
      · obtain ⟨e, he⟩ := List.exists_mem_of_ne_nil _ hlarge
        have := p2 e he
        have := hb e (p1.mem_iff.mp (List.mem_append_left _ he))
        omega)
  obtain ⟨t2, l2, b1, b2, b3, _⟩ := COO.buildSimd_holds g ht h4 h5 (edges := small) (m := m) (n := n)
    (rs := rs) (cs := cs) (fun e he => hin e (p1.mem_iff.mp (List.mem_append_right _ he)))
  rw [p4, a1, Option.bind_some, b1, Option.bind_some]
  have hfin : (l1 ++ l2).Perm (edges.map (localOf rs cs)) := by
    refine (a3.append b3).trans ?_
    rw [← List.map_append]
    exact p1.map _
  refine ⟨_, l1 ++ l2, rfl, ⟨rfl, rfl, ?_, t1, t2, l1, l2, rfl, rfl, a2, b2, rfl⟩, hfin⟩
  show edges.length = _
  rw [hfin.length_eq, List.length_map]

end GraphMat

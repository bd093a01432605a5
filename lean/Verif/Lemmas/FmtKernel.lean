import Verif.Lemmas.TileMul
import Verif.Model.Formats

/-!
# The kernels of the other tile formats add the contributions of the stored entries
-/
namespace GraphMat

variable {E T U α : Type}

/-- The kernel `f` adds the contributions of the entries `l` to the values in a segment of `cap` elements. -/
def KernelAdds (cap : Nat) (add : U → U → U) (xm : Nat → Option T) (pm : E → T → U)
    (f : Arr U × Arr Word → Option (Arr U × Arr Word)) (l : List (Nat × Nat × E)) : Prop :=
  ∀ st, POk cap st → ∃ st', f st = some st' ∧ POk cap st' ∧
    ∀ j, pview cap st' j = accum add (pview cap st j) (contrib xm (fun _ => pm) l j)

theorem contrib_append (xm : Nat → Option T) (pm : Nat → E → T → U) (l l' : List (Nat × Nat × E)) (i : Nat) :
    contrib xm pm (l ++ l') i = contrib xm pm l i ++ contrib xm pm l' i := by
  unfold contrib; rw [List.filterMap_append]

theorem accum_eq_none {add : U → U → U} {a : Option U} {l : List U} (h : accum add a l = none) : a = none ∧ l = [] := by
  cases a with
  | some a => rw [accum_some] at h; cases h
  | none =>
    cases l with
    | nil => exact ⟨rfl, rfl⟩
    | cons u l => exact absurd ((accum_some add u l).symm.trans h) (by simp)

section
variable {cap : Nat} {add : U → U → U} {xm : Nat → Option T} {pm : E → T → U}

theorem KernelAdds.nil : KernelAdds cap add xm pm (fun st => some st) ([] : List (Nat × Nat × E)) :=
  fun st h => ⟨st, rfl, h, fun _ => rfl⟩

theorem KernelAdds.bind {f g : Arr U × Arr Word → Option (Arr U × Arr Word)} {l l' : List (Nat × Nat × E)}
    (hf : KernelAdds cap add xm pm f l) (hg : KernelAdds cap add xm pm g l') :
    KernelAdds cap add xm pm (fun st => (f st).bind g) (l ++ l') := by
  intro st h
  obtain ⟨s1, a1, a2, a3⟩ := hf st h
  obtain ⟨s2, b1, b2, b3⟩ := hg s1 a2
  refine ⟨s2, by show (f st).bind g = _; rw [a1]; exact b1, b2, ?_⟩
  intro j
  rw [b3, a3, contrib_append, accum_append]

theorem KernelAdds.congr {f g : Arr U × Arr Word → Option (Arr U × Arr Word)} {l : List (Nat × Nat × E)}
    (hf : KernelAdds cap add xm pm f l) (h : ∀ st, POk cap st → g st = f st) : KernelAdds cap add xm pm g l := by
  intro st hst
  obtain ⟨s1, a1, a2⟩ := hf st hst
  exact ⟨s1, by rw [h st hst]; exact a1, a2⟩

theorem KernelAdds.forLoop {lo hi : Nat} {body : Nat → Arr U × Arr Word → Option (Arr U × Arr Word)}
    {L : Nat → List (Nat × Nat × E)} (h : ∀ i, lo ≤ i → i < hi → KernelAdds cap add xm pm (body i) (L i)) :
    KernelAdds cap add xm pm (fun st => forLoop lo hi st body) ((List.range' lo (hi - lo)).flatMap L) := by
  unfold GraphMat.forLoop
  have key : ∀ (is : List Nat), (∀ i ∈ is, lo ≤ i ∧ i < hi) →
      KernelAdds cap add xm pm (fun st => is.foldlM (fun s i => body i s) st) (is.flatMap L) := by
    intro is
    induction is with
    | nil => intro _; exact KernelAdds.nil
    | cons a is ih =>
      intro hmem
      have h1 := h a (hmem a List.mem_cons_self).1 (hmem a List.mem_cons_self).2
      have h2 := ih (fun i hi => hmem i (List.mem_cons_of_mem _ hi))
      rw [List.flatMap_cons]
      refine (h1.bind h2).congr ?_
      intro st _
      rw [List.foldlM_cons]; rfl
  refine key _ ?_
  intro i hi
  rw [List.mem_range'] at hi
  obtain ⟨k, hk, e⟩ := hi
  omega

end

/-- Consecutive intervals. -/
theorem range_nest (c : Nat → Nat) (m : Nat) (h0 : c 0 = 0) (hm : ∀ i, i < m → c i ≤ c (i + 1)) :
    (List.range m).flatMap (fun p => List.range' (c p) (c (p + 1) - c p)) = List.range (c m) := by
  induction m with
  | zero => simp [h0]
  | succ m ih =>
    rw [List.range_succ, List.flatMap_append, ih (fun i hi => hm i (by omega))]
    have := hm m (by omega)
    simp only [List.flatMap_cons, List.flatMap_nil, List.append_nil]
    have h := List.range'_append_1 (s := 0) (m := c m) (n := c (m + 1) - c m)
    rw [Nat.zero_add, Nat.add_sub_cancel' this] at h
    rw [List.range_eq_range', List.range_eq_range', h]

theorem flatMap_nest {γ : Type} (c : Nat → Nat) (m : Nat) (h0 : c 0 = 0) (hm : ∀ i, i < m → c i ≤ c (i + 1))
    (f : Nat → List γ) : (List.range m).flatMap (fun p => (List.range' (c p) (c (p + 1) - c p)).flatMap f) =
      (List.range (c m)).flatMap f := by
  rw [← range_nest c m h0 hm, List.flatMap_assoc]

theorem map_nest {γ : Type} (c : Nat → Nat) (m : Nat) (h0 : c 0 = 0) (hm : ∀ i, i < m → c i ≤ c (i + 1))
    (f : Nat → γ) : (List.range m).flatMap (fun p => (List.range' (c p) (c (p + 1) - c p)).map f) =
      (List.range (c m)).map f := by
  rw [← range_nest c m h0 hm, List.map_flatMap]

/-! ### Storing the value of one row -/

theorem setRow_spec {cap row : Nat} {st : Arr U × Arr Word} (h : POk cap st) (hr : row < cap) (y : U) :
    ∃ b v, setBitvector row st.2 = some b ∧ st.1.write row y = some v ∧ POk cap (v, b) ∧
      ∀ j, pview cap (v, b) j = if j = row then some y else pview cap st j := by
  have hw : row / 32 < st.2.size := by rw [h.bits]; exact word_lt hr
  obtain ⟨b, b1, b2, b3, _⟩ := setBitvector_spec (bv := st.2) hw
  refine ⟨b, st.1.upd row y, b1, Arr.write_some (by rw [h.value]; exact hr), ⟨h.value, by rw [b2]; exact h.bits, ?_⟩, ?_⟩
  · intro i hi hi2
    show bitAt b i = false
    rw [b3, if_neg (by omega)]
    exact h.tail i hi (by rw [← b2]; exact hi2)
  · intro j
    unfold pview
    show (if j < cap ∧ bitAt b j = true then some ((st.1.upd row y).get j) else none) = _
    rw [b3]
    by_cases hj : j = row
    · subst hj; simp [hr]
    · rw [if_neg hj, if_neg hj, Arr.upd_get_ne _ _ hj]

theorem putRow_spec {cap row : Nat} {st : Arr U × Arr Word} (h : POk cap st) (hr : row < cap) (y : U)
    (hb : bitAt st.2 row = true) :
    ∃ v, st.1.write row y = some v ∧ POk cap (v, st.2) ∧
      ∀ j, pview cap (v, st.2) j = if j = row then some y else pview cap st j := by
  refine ⟨st.1.upd row y, Arr.write_some (by rw [h.value]; exact hr), ⟨h.value, h.bits, h.tail⟩, ?_⟩
  intro j
  unfold pview
  show (if j < cap ∧ bitAt st.2 j = true then some ((st.1.upd row y).get j) else none) = _
  by_cases hj : j = row
  · subst hj; simp [hr, hb]
  · rw [if_neg hj, Arr.upd_get_ne _ _ hj]

theorem natIdx_nat (k : Nat) : natIdx (k : Int) = some k := by
  unfold natIdx; rw [if_pos (by omega)]; rfl

theorem natIdx_one {x : Int} {k : Nat} (h : x = (k : Int) + 1) : natIdx (x - 1) = some k := by
  have : x - 1 = (k : Int) := by omega
  rw [this, natIdx_nat]

/-- Reading the message of a column. -/
theorem pview_cases {n : Nat} {xs : Arr T × Arr Word} (hx : POk n xs) {col : Nat} (hc : col < n) :
    getBitvector col xs.2 = some (bitAt xs.2 col) ∧
    ((bitAt xs.2 col = true ∧ xs.1.read col = some (xs.1.get col) ∧ pview n xs col = some (xs.1.get col)) ∨
     (bitAt xs.2 col = false ∧ pview n xs col = none)) := by
  have hw : col / 32 < xs.2.size := by rw [hx.bits]; exact word_lt hc
  refine ⟨getBitvector_eq hw, ?_⟩
  by_cases hb : bitAt xs.2 col = true
  · left
    exact ⟨hb, Arr.read_some (by rw [hx.value]; exact hc), by unfold pview; rw [if_pos ⟨hc, hb⟩]⟩
  · right
    exact ⟨by simpa using hb, by unfold pview; rw [if_neg (fun h => hb h.2)]⟩

/-- The values added to a row by its first entries. -/
theorem contrib_row_snoc {xm : Nat → Option T} {pm : E → T → U} {add : U → U → U} {y0 : Option U} {lo k row : Nat}
    {ent : Nat → Nat × Nat × E} (hlo : lo ≤ k) (hrow : (ent k).1 = row) :
    accum add y0 (contrib xm (fun _ => pm) ((List.range' lo (k + 1 - lo)).map ent) row) =
      match xm (ent k).2.1 with
      | some x => combine add (accum add y0 (contrib xm (fun _ => pm) ((List.range' lo (k - lo)).map ent) row))
          (some (pm (ent k).2.2 x))
      | none => accum add y0 (contrib xm (fun _ => pm) ((List.range' lo (k - lo)).map ent) row) := by
  have e : k + 1 - lo = (k - lo) + 1 := by omega
  rw [e, List.range'_1_concat, List.map_append, contrib_append, accum_append, Nat.add_sub_cancel' hlo]
  unfold contrib
  simp only [List.map_cons, List.map_nil]
  cases hx : xm (ent k).2.1 with
  | none => rw [List.filterMap_cons_none (by rw [if_pos hrow, hx]; rfl)]; rfl
  | some x =>
    rw [List.filterMap_cons_some (b := pm (ent k).2.2 x) (by rw [if_pos hrow, hx]; rfl)]
    rfl

theorem contrib_other {xm : Nat → Option T} {pm : Nat → E → T → U} {l : List (Nat × Nat × E)} {row j : Nat}
    (h : ∀ x ∈ l, x.1 = row) (hj : j ≠ row) : contrib xm pm l j = [] := by
  unfold contrib
  rw [List.filterMap_eq_nil_iff]
  intro x hx
  rw [if_neg (by rw [h x hx]; exact fun h => hj h.symm)]

/-- What the row kernels have to establish. -/
theorem row_done {cap row : Nat} {add : U → U → U} {xm : Nat → Option T} {pm : E → T → U} {l : List (Nat × Nat × E)}
    (hl : ∀ x ∈ l, x.1 = row) {st st' : Arr U × Arr Word} {y : Option U}
    (hy : y = accum add (pview cap st row) (contrib xm (fun _ => pm) l row))
    (h : ∀ j, pview cap st' j = if j = row then y else pview cap st j) (j : Nat) :
    pview cap st' j = accum add (pview cap st j) (contrib xm (fun _ => pm) l j) := by
  rw [h]
  by_cases hj : j = row
  · subst hj; rw [if_pos rfl, hy]
  · rw [if_neg hj, contrib_other hl hj]; rfl

/-! ### CSR -/

/-- A CSR tile that stores the entries `ent 0`, `ent 1`, …; row `i` has the entries `c i ≤ k < c (i + 1)`. -/
structure CSR.Ok (t : CSR E) (c : Nat → Nat) (ent : Nat → Nat × Nat × E) : Prop where
  asz : t.a.size = t.nnz
  jsz : t.ja.size = t.nnz
  isz : t.ia.size = t.m + 1
  val : ∀ k, k < t.nnz → t.a.get k = (ent k).2.2
  col : ∀ k, k < t.nnz → t.ja.get k = ((ent k).2.1 : Int) + 1
  coln : ∀ k, k < t.nnz → (ent k).2.1 < t.n
  ptr : ∀ i, i ≤ t.m → t.ia.get i = c i + 1
  c0 : c 0 = 0
  cm : c t.m = t.nnz
  mono : ∀ i, i < t.m → c i ≤ c (i + 1)
  row : ∀ i, i < t.m → ∀ k, c i ≤ k → k < c (i + 1) → (ent k).1 = i

theorem mono_le {c : Nat → Nat} {m : Nat} (h : ∀ i, i < m → c i ≤ c (i + 1)) {i j : Nat} (hij : i ≤ j) (hj : j ≤ m) :
    c i ≤ c j := by
  induction j with
  | zero => have : i = 0 := by omega
            subst this; exact Nat.le_refl _
  | succ j ih =>
    rcases Nat.lt_or_ge i (j + 1) with hl | hg
    · exact Nat.le_trans (ih (by omega) (by omega)) (h j (by omega))
    · have : i = j + 1 := by omega
      subst this; exact Nat.le_refl _

theorem CSR.Ok.le {t : CSR E} {c : Nat → Nat} {ent : Nat → Nat × Nat × E} (h : t.Ok c ent) {i : Nat} (hi : i ≤ t.m) :
    c i ≤ t.nnz := by
  rw [← h.cm]; exact mono_le h.mono hi (Nat.le_refl _)

theorem csrRow_adds {t : CSR E} {c : Nat → Nat} {ent : Nat → Nat × Nat × E} (h : t.Ok c ent) {xs : Arr T × Arr Word}
    (hx : POk t.n xs) {mul : E → T → U → U} {pm : E → T → U} (hm : ∀ e x old, mul e x old = pm e x) (add : U → U → U)
    (old : Nat → U) {row : Nat} (hr : row < t.m) :
    KernelAdds t.m add (pview t.n xs) pm (csrRow t mul add old xs.1 xs.2 row)
      ((List.range' (c row) (c (row + 1) - c row)).map ent) := by
  intro st hst
  have hw : row / 32 < st.2.size := by rw [hst.bits]; exact word_lt hr
  unfold csrRow
  simp only [Option.bind_eq_bind]
  rw [getBitvector_eq hw, Option.bind_some]
  have hy0 : rowValue row (bitAt st.2 row) st = some (pview t.m st row) := by
    unfold pview rowValue
    by_cases hb : bitAt st.2 row = true
    · rw [if_pos hb, if_pos ⟨hr, hb⟩, Arr.read_some (by rw [hst.value]; exact hr)]; rfl
    · rw [if_neg hb, if_neg (fun h => hb h.2)]
  rw [hy0, Option.bind_some, Arr.read_some (by rw [h.isz]; omega), Option.bind_some,
    Arr.read_some (by rw [h.isz]; omega), Option.bind_some, h.ptr row (by omega), h.ptr (row + 1) (by omega)]
  have hmono := h.mono row hr
  have hle := h.le (i := row + 1) (by omega)
  obtain ⟨r, e1, e2, e3, e4⟩ := forLoop_inv (σ := Option U × Arr Word) (lo := c row + 1) (hi := c (row + 1) + 1)
    (s := (pview t.m st row, st.2))
    (body := fun nz r => (pred1 nz).bind fun k => (t.ja.read k).bind fun j => (natIdx (j - 1)).bind fun col =>
      (getBitvector col xs.2).bind fun xbit =>
        if xbit = true then (t.a.read k).bind fun av => (xs.1.read col).bind fun x =>
          match r.1 with
          | some y => some (some (add y (mul av x (old nz))), r.2)
          | none => (setBitvector row r.2).bind fun bits => some (some (mul av x (old nz)), bits)
        else some r)
    (fun k r => r.1 = accum add (pview t.m st row)
        (contrib (pview t.n xs) (fun _ => pm) ((List.range' (c row) (k - 1 - c row)).map ent) row) ∧
      (pview t.m st row ≠ none ∨ r.1 = none → r.2 = st.2) ∧
      (pview t.m st row = none → r.1 ≠ none → setBitvector row st.2 = some r.2))
    (by omega)
    (by
      refine ⟨?_, fun _ => rfl, fun h1 h2 => absurd h1 h2⟩
      rw [show c row + 1 - 1 - c row = 0 by omega]; rfl)
    (by
      intro nz r hlo hhi hinv
      obtain ⟨i1, i2, i3⟩ := hinv
      obtain ⟨k, rfl⟩ : ∃ k, nz = k + 1 := ⟨nz - 1, by omega⟩
      have hk : k < t.nnz := by omega
      have hrow := h.row row hr k (by omega) (by omega)
      have hs := contrib_row_snoc (xm := pview t.n xs) (pm := pm) (add := add) (y0 := pview t.m st row)
        (lo := c row) (k := k) (row := row) (ent := ent) (by omega) hrow
      have i1' : r.1 = accum add (pview t.m st row)
        (contrib (pview t.n xs) (fun _ => pm) ((List.range' (c row) (k - c row)).map ent) row) := i1
      rw [show k + 1 + 1 - 1 - c row = k + 1 - c row by omega, hs]
      show ∃ s', (t.ja.read k).bind _ = some s' ∧ _
      rw [Arr.read_some (by rw [h.jsz]; exact hk), Option.bind_some, natIdx_one (h.col k hk), Option.bind_some]
      obtain ⟨b1, b2⟩ := pview_cases hx (h.coln k hk)
      rw [b1, Option.bind_some]
      rcases b2 with ⟨b2, b3, b4⟩ | ⟨b2, b4⟩
      · rw [if_pos b2, Arr.read_some (by rw [h.asz]; exact hk), Option.bind_some, b3, Option.bind_some, h.val k hk, b4]
        cases hr1 : r.1 with
        | some y =>
          refine ⟨_, rfl, ?_, ?_, ?_⟩
          · show some (add y _) = _
            rw [← i1', hr1, hm]; rfl
          · intro hc
            rcases hc with hc | hc
            · exact i2 (Or.inl hc)
            · cases hc
          · intro h1 _
            exact i3 h1 (by rw [hr1]; simp)
        | none =>
          have hst2 := i2 (Or.inr hr1)
          have hp0 : pview t.m st row = none := (accum_eq_none (i1'.symm.trans hr1)).1
          obtain ⟨b, s1, _⟩ := setBitvector_spec (bv := st.2) hw
          show ∃ s', (setBitvector row r.2).bind _ = some s' ∧ _
          rw [hst2, s1, Option.bind_some]
          refine ⟨_, rfl, ?_, ?_, ?_⟩
          · show some _ = _
            rw [← i1', hr1, hm]; rfl
          · intro hc
            rcases hc with hc | hc
            · exact absurd hp0 hc
            · cases hc
          · intro _ _
            rfl
      · rw [if_neg (by simp [b2]), b4]
        exact ⟨r, rfl, i1', i2, i3⟩)
  rw [show c (row + 1) + 1 - 1 - c row = c (row + 1) - c row by omega] at e2
  refine Exists.imp (fun st' hh => ⟨?_, hh.2⟩) (?_ : ∃ st', (match r.1 with
      | some y => (st.1.write row y).bind fun v => some (v, r.2)
      | none => some (st.1, r.2)) = some st' ∧ _)
  · refine Eq.trans ?_ hh.1
    refine (congrArg (fun z => Option.bind z _) e1).trans ?_
    rfl
  · have hl : ∀ x ∈ (List.range' (c row) (c (row + 1) - c row)).map ent, x.1 = row := by
      intro x hx'
      rw [List.mem_map] at hx'
      obtain ⟨k, hk, rfl⟩ := hx'
      rw [List.mem_range'_1] at hk
      exact h.row row hr k (by omega) (by omega)
    cases hr1 : r.1 with
    | none =>
      have hst2 := e3 (Or.inr hr1)
      refine ⟨(st.1, r.2), rfl, by rw [hst2]; exact hst, row_done hl (y := none) (by rw [← e2, hr1]) ?_⟩
      intro j
      rw [hst2]
      have hp0 : pview t.m st row = none := (accum_eq_none (e2.symm.trans hr1)).1
      by_cases hj : j = row
      · subst hj; rw [if_pos rfl]; exact hp0
      · rw [if_neg hj]
    | some y =>
      by_cases hp : pview t.m st row = none
      · obtain ⟨b, v, s1, s2, s3, s4⟩ := setRow_spec hst hr y
        have := e4 hp (by rw [hr1]; simp)
        have hb : b = r.2 := Option.some.inj (s1.symm.trans this)
        refine ⟨(v, r.2), ?_, by rw [← hb]; exact s3, row_done hl (y := some y) (by rw [← e2, hr1]) ?_⟩
        · show (st.1.write row y).bind _ = _
          rw [s2]; rfl
        · rw [← hb]; exact s4
      · have hst2 := e3 (Or.inl hp)
        have hb : bitAt st.2 row = true := by
          unfold pview at hp
          by_cases hbb : bitAt st.2 row = true
          · exact hbb
          · rw [if_neg (fun h => hbb h.2)] at hp; exact absurd rfl hp
        obtain ⟨v, s1, s2, s3⟩ := putRow_spec hst hr y hb
        refine ⟨(v, r.2), ?_, by rw [hst2]; exact s2, row_done hl (y := some y) (by rw [← e2, hr1]) ?_⟩
        · show (st.1.write row y).bind _ = _
          rw [s1]; rfl
        · rw [hst2]; exact s3

/-- Partition `p` of the kernel for CSR tiles. -/
theorem part_min (p rpp m : Nat) (st : α) (body : Nat → α → Option α) :
    forLoop (p * rpp) (min ((p + 1) * rpp) m) st body = forLoop (min (p * rpp) m) (min ((p + 1) * rpp) m) st body := by
  rcases Nat.le_total (p * rpp) m with h | h
  · rw [Nat.min_eq_left h]
  · rw [Nat.min_eq_right h, forLoop_empty (Nat.le_trans (Nat.min_le_right _ _) h), forLoop_empty (Nat.min_le_right _ _)]

theorem parts_cover {m np : Nat} (hnp : 0 < np) : m ≤ np * (((m + np - 1) / np + 31) / 32 * 32) := by
  have h1 : m ≤ np * ((m + np - 1) / np) := by
    have := Nat.lt_mul_div_succ (m + np - 1) hnp
    rw [Nat.mul_add] at this
    omega
  have h2 : (m + np - 1) / np ≤ ((m + np - 1) / np + 31) / 32 * 32 := by omega
  exact Nat.le_trans h1 (Nat.mul_le_mul_left np h2)

theorem CSR.spmspv_adds {t : CSR E} {c : Nat → Nat} {ent : Nat → Nat × Nat × E} (h : t.Ok c ent) {xs : Arr T × Arr Word}
    (hx : POk t.n xs) {mul : E → T → U → U} {pm : E → T → U} (hm : ∀ e x old, mul e x old = pm e x) (add : U → U → U)
    (old : Nat → U) {threads : Nat} (ht : 0 < threads) :
    KernelAdds t.m add (pview t.n xs) pm (t.spmspv threads mul add old xs.1 xs.2) ((List.range t.nnz).map ent) := by
  have hnp : 0 < threads * 4 := by omega
  obtain ⟨np, hnpe⟩ : ∃ np, np = threads * 4 := ⟨_, rfl⟩
  have hc := parts_cover (m := t.m) hnp
  rw [← hnpe] at hnp hc
  obtain ⟨rpp, hrpp⟩ : ∃ rpp, rpp = ((t.m + np - 1) / np + 31) / 32 * 32 := ⟨_, rfl⟩
  rw [← hrpp] at hc
  have hmono : ∀ p, p < np → min (p * rpp) t.m ≤ min ((p + 1) * rpp) t.m := by
    intro p _
    rw [Nat.add_mul]; omega
  have key := KernelAdds.forLoop (cap := t.m) (add := add) (xm := pview t.n xs) (pm := pm) (lo := 0) (hi := np)
    (body := fun p st => GraphMat.forLoop (min (p * rpp) t.m) (min ((p + 1) * rpp) t.m) st (csrRow t mul add old xs.1 xs.2))
    (L := fun p => (List.range' (min (p * rpp) t.m) (min ((p + 1) * rpp) t.m - min (p * rpp) t.m)).flatMap
      (fun row => (List.range' (c row) (c (row + 1) - c row)).map ent))
    (fun p _ _ => KernelAdds.forLoop (fun row _ h2 => csrRow_adds h hx hm add old (by omega)))
  rw [Nat.sub_zero, ← List.range_eq_range', flatMap_nest (fun p => min (p * rpp) t.m) np (by simp) hmono] at key
  rw [Nat.min_eq_right hc, map_nest c t.m h.c0 h.mono, h.cm] at key
  refine key.congr ?_
  intro st _
  unfold CSR.spmspv
  simp only
  rw [← hnpe, if_neg (by omega), ← hrpp]
  refine forLoop_congr ?_
  intro p st _ _
  exact part_min _ _ _ _ _

/-! ### DCSR -/

/-- A DCSR tile that stores the entries `ent 0`, `ent 1`, …; the stored row `i` is row `r i` and has the entries
`c i ≤ k < c (i + 1)`. -/
structure DCSR.Ok (t : DCSR E) (r c : Nat → Nat) (ent : Nat → Nat × Nat × E) : Prop where
  asz : t.a.size = t.nnz
  jsz : t.ja.size = t.nnz
  isz : t.ia.size = t.numRows + 1
  rsz : t.rowIds.size = t.numRows
  psz : t.pp.size = t.np + 1
  val : ∀ k, k < t.nnz → t.a.get k = (ent k).2.2
  col : ∀ k, k < t.nnz → t.ja.get k = ((ent k).2.1 : Int)
  coln : ∀ k, k < t.nnz → (ent k).2.1 < t.n
  rid : ∀ i, i < t.numRows → t.rowIds.get i = (r i : Int)
  rm : ∀ i, i < t.numRows → r i < t.m
  ptr : ∀ i, i ≤ t.numRows → t.ia.get i = c i
  c0 : c 0 = 0
  cm : c t.numRows = t.nnz
  mono : ∀ i, i < t.numRows → c i ≤ c (i + 1)
  row : ∀ i, i < t.numRows → ∀ k, c i ≤ k → k < c (i + 1) → (ent k).1 = r i
  p0 : t.pp.get 0 = 0
  pm : t.pp.get t.np = t.numRows
  pmono : ∀ p, p < t.np → t.pp.get p ≤ t.pp.get (p + 1)
  rle : t.numRows ≤ t.m
  rnz : t.numRows ≤ t.nnz
  npos : 0 < t.np

theorem DCSR.Ok.le {t : DCSR E} {r c : Nat → Nat} {ent : Nat → Nat × Nat × E} (h : t.Ok r c ent) {i : Nat}
    (hi : i ≤ t.numRows) : c i ≤ t.nnz := by
  rw [← h.cm]; exact mono_le h.mono hi (Nat.le_refl _)

theorem dcsrRow_adds {t : DCSR E} {r c : Nat → Nat} {ent : Nat → Nat × Nat × E} (h : t.Ok r c ent)
    {xs : Arr T × Arr Word}
    (hx : POk t.n xs) {mul : E → T → U → U} {pm : E → T → U} (hm : ∀ e x old, mul e x old = pm e x) (add : U → U → U)
    (old : Nat → U) {i : Nat} (hi : i < t.numRows) :
    KernelAdds t.m add (pview t.n xs) pm (dcsrRow t mul add old xs.1 xs.2 i)
      ((List.range' (c i) (c (i + 1) - c i)).map ent) := by
  intro st hst
  have hr := h.rm i hi
  have hw : r i / 32 < st.2.size := by rw [hst.bits]; exact word_lt hr
  unfold dcsrRow
  simp only [Option.bind_eq_bind]
  rw [Arr.read_some (by rw [h.rsz]; exact hi), Option.bind_some, h.rid i hi, natIdx_nat, Option.bind_some,
    getBitvector_eq hw, Option.bind_some]
  have hy0 : rowValue (r i) (bitAt st.2 (r i)) st = some (pview t.m st (r i)) := by
    unfold pview rowValue
    by_cases hb : bitAt st.2 (r i) = true
    · rw [if_pos hb, if_pos ⟨hr, hb⟩, Arr.read_some (by rw [hst.value]; exact hr)]; rfl
    · rw [if_neg hb, if_neg (fun h => hb h.2)]
  rw [hy0, Option.bind_some, Arr.read_some (by rw [h.isz]; omega), Option.bind_some,
    Arr.read_some (by rw [h.isz]; omega), Option.bind_some, h.ptr i (by omega), h.ptr (i + 1) (by omega)]
  have hmono := h.mono i hi
  have hle := h.le (i := i + 1) (by omega)
  obtain ⟨y, e1, e2⟩ := forLoop_inv (σ := Option U) (lo := c i) (hi := c (i + 1))
    (s := pview t.m st (r i))
    (body := fun nz y => (t.ja.read nz).bind fun j => (natIdx j).bind fun col =>
      (getBitvector col xs.2).bind fun xbit =>
        if xbit = true then (t.a.read nz).bind fun av => (xs.1.read col).bind fun x =>
          match y with
          | some y => some (some (add y (mul av x (old nz))))
          | none => some (some (mul av x (old nz)))
        else some y)
    (fun k y => y = accum add (pview t.m st (r i))
        (contrib (pview t.n xs) (fun _ => pm) ((List.range' (c i) (k - c i)).map ent) (r i)))
    hmono
    (by rw [Nat.sub_self]; rfl)
    (by
      intro k y hlo hhi i1
      have hk : k < t.nnz := by omega
      have hrow := h.row i hi k (by omega) (by omega)
      have hs := contrib_row_snoc (xm := pview t.n xs) (pm := pm) (add := add) (y0 := pview t.m st (r i))
        (lo := c i) (k := k) (row := r i) (ent := ent) (by omega) hrow
      rw [hs, Arr.read_some (by rw [h.jsz]; exact hk), Option.bind_some, h.col k hk, natIdx_nat, Option.bind_some]
      obtain ⟨b1, b2⟩ := pview_cases hx (h.coln k hk)
      rw [b1, Option.bind_some]
      rcases b2 with ⟨b2, b3, b4⟩ | ⟨b2, b4⟩
      · rw [if_pos b2, Arr.read_some (by rw [h.asz]; exact hk), Option.bind_some, b3, Option.bind_some, h.val k hk, b4]
        rw [← i1]
        cases y with
        | some y => exact ⟨_, rfl, by rw [hm]; rfl⟩
        | none => exact ⟨_, rfl, by rw [hm]; rfl⟩
      · rw [if_neg (by simp [b2]), b4]
        exact ⟨y, rfl, i1⟩)
  refine Exists.imp (fun st' hh => ⟨?_, hh.2⟩) (?_ : ∃ st', (match y with
      | some y => (setBitvector (r i) st.2).bind fun bits => (st.1.write (r i) y).bind fun v => some (v, bits)
      | none => some st) = some st' ∧ _)
  · refine Eq.trans ?_ hh.1
    exact congrArg (fun z => Option.bind z _) e1
  · have hl : ∀ x ∈ (List.range' (c i) (c (i + 1) - c i)).map ent, x.1 = r i := by
      intro x hx'
      rw [List.mem_map] at hx'
      obtain ⟨k, hk, rfl⟩ := hx'
      rw [List.mem_range'_1] at hk
      exact h.row i hi k (by omega) (by omega)
    cases y with
    | none =>
      refine ⟨st, rfl, hst, row_done hl (y := none) e2 ?_⟩
      intro j
      have hp0 : pview t.m st (r i) = none := (accum_eq_none e2.symm).1
      by_cases hj : j = r i
      · subst hj; rw [if_pos rfl]; exact hp0
      · rw [if_neg hj]
    | some y =>
      obtain ⟨b, v, s1, s2, s3, s4⟩ := setRow_spec hst hr y
      refine ⟨(v, b), ?_, s3, row_done hl (y := some y) e2 s4⟩
      show (setBitvector (r i) st.2).bind _ = _
      rw [s1, Option.bind_some, s2, Option.bind_some]

theorem DCSR.spmspv_adds {t : DCSR E} {r c : Nat → Nat} {ent : Nat → Nat × Nat × E} (h : t.Ok r c ent)
    {xs : Arr T × Arr Word}
    (hx : POk t.n xs) {mul : E → T → U → U} {pm : E → T → U} (hm : ∀ e x old, mul e x old = pm e x) (add : U → U → U)
    (old : Nat → U) :
    KernelAdds t.m add (pview t.n xs) pm (t.spmspv mul add old xs.1 xs.2) ((List.range t.nnz).map ent) := by
  have hple : ∀ p, p ≤ t.np → t.pp.get p ≤ t.numRows := by
    intro p hp
    rw [← h.pm]; exact mono_le h.pmono hp (Nat.le_refl _)
  have key := KernelAdds.forLoop (cap := t.m) (add := add) (xm := pview t.n xs) (pm := pm) (lo := 0) (hi := t.np)
    (body := fun p st => GraphMat.forLoop (t.pp.get p) (t.pp.get (p + 1)) st (dcsrRow t mul add old xs.1 xs.2))
    (L := fun p => (List.range' (t.pp.get p) (t.pp.get (p + 1) - t.pp.get p)).flatMap
      (fun i => (List.range' (c i) (c (i + 1) - c i)).map ent))
    (fun p _ hp => KernelAdds.forLoop (fun i _ h2 => dcsrRow_adds h hx hm add old (by
      have := hple (p + 1) (by omega)
      omega)))
  rw [Nat.sub_zero, ← List.range_eq_range', flatMap_nest t.pp.get t.np h.p0 h.pmono, h.pm,
    map_nest c t.numRows h.c0 h.mono, h.cm] at key
  refine key.congr ?_
  intro st _
  unfold DCSR.spmspv
  refine forLoop_congr ?_
  intro p st _ hp
  simp only [Option.bind_eq_bind]
  rw [Arr.read_some (by rw [h.psz]; omega), Option.bind_some, Arr.read_some (by rw [h.psz]; omega), Option.bind_some]

/-! ### COO -/

/-- A COO tile that stores the entries `ent 0`, `ent 1`, …. -/
structure COO.Ok (t : COO E) (ent : Nat → Nat × Nat × E) : Prop where
  asz : t.a.size = t.nnz
  jsz : t.ja.size = t.nnz
  isz : t.ia.size = t.nnz
  val : ∀ k, k < t.nnz → t.a.get k = (ent k).2.2
  col : ∀ k, k < t.nnz → t.ja.get k = ((ent k).2.1 : Int) + 1
  row : ∀ k, k < t.nnz → t.ia.get k = ((ent k).1 : Int) + 1
  coln : ∀ k, k < t.nnz → (ent k).2.1 < t.n
  rowm : ∀ k, k < t.nnz → (ent k).1 < t.m

/-- The partitions of a COO tile cover its entries once. -/
structure COO.Parts (t : COO E) : Prop where
  psz : t.ps.size = t.np + 1
  p0 : t.ps.get 0 = 0
  pm : t.ps.get t.np = t.nnz
  pmono : ∀ p, p < t.np → t.ps.get p ≤ t.ps.get (p + 1)

theorem cooEntry_adds {t : COO E} {ent : Nat → Nat × Nat × E} (h : t.Ok ent) {xs : Arr T × Arr Word}
    (hx : POk t.n xs) {mul : E → T → U → U} {pm : E → T → U} (hm : ∀ e x old, mul e x old = pm e x) (add : U → U → U)
    (old : Nat → U) {k : Nat} (hk : k < t.nnz) :
    KernelAdds t.m add (pview t.n xs) pm (cooEntry t mul add old xs.1 xs.2 k) [ent k] := by
  intro st hst
  have hr := h.rowm k hk
  have hw : (ent k).1 / 32 < st.2.size := by rw [hst.bits]; exact word_lt hr
  unfold cooEntry
  simp only [Option.bind_eq_bind]
  rw [Arr.read_some (by rw [h.isz]; exact hk), Option.bind_some, natIdx_one (h.row k hk), Option.bind_some,
    Arr.read_some (by rw [h.jsz]; exact hk), Option.bind_some, natIdx_one (h.col k hk), Option.bind_some]
  obtain ⟨b1, b2⟩ := pview_cases hx (h.coln k hk)
  rw [b1, Option.bind_some]
  have hl : ∀ x ∈ [ent k], x.1 = (ent k).1 := by
    intro x hx'; rw [List.mem_singleton] at hx'; rw [hx']
  rcases b2 with ⟨b2, b3, b4⟩ | ⟨b2, b4⟩
  · rw [if_pos b2, Arr.read_some (by rw [h.asz]; exact hk), Option.bind_some, b3, Option.bind_some, h.val k hk,
      getBitvector_eq hw, Option.bind_some, hm]
    unfold cooStore
    simp only [Option.bind_eq_bind]
    have hc : contrib (pview t.n xs) (fun _ => pm) [ent k] (ent k).1 = [pm (ent k).2.2 (xs.1.get (ent k).2.1)] := by
      unfold contrib
      rw [List.filterMap_cons_some (b := pm (ent k).2.2 (xs.1.get (ent k).2.1)) (by rw [if_pos rfl, b4]; rfl)]
      rfl
    by_cases hb : bitAt st.2 (ent k).1 = true
    · have hp : pview t.m st (ent k).1 = some (st.1.get (ent k).1) := by unfold pview; rw [if_pos ⟨hr, hb⟩]
      obtain ⟨b, v, s1, s2, s3, s4⟩ := setRow_spec hst hr (add (st.1.get (ent k).1) (pm (ent k).2.2 (xs.1.get (ent k).2.1)))
      rw [if_pos hb, Arr.read_some (by rw [hst.value]; exact hr), Option.bind_some, s2, Option.bind_some, s1,
        Option.bind_some]
      exact ⟨_, rfl, s3, row_done hl (by rw [hc, hp]; rfl) s4⟩
    · have hp : pview t.m st (ent k).1 = none := by unfold pview; rw [if_neg (fun h => hb h.2)]
      obtain ⟨b, v, s1, s2, s3, s4⟩ := setRow_spec hst hr (pm (ent k).2.2 (xs.1.get (ent k).2.1))
      rw [if_neg hb, s2, Option.bind_some, s1, Option.bind_some]
      exact ⟨_, rfl, s3, row_done hl (by rw [hc, hp]; rfl) s4⟩
  · rw [if_neg (by simp [b2])]
    refine ⟨st, rfl, hst, ?_⟩
    intro j
    have : contrib (pview t.n xs) (fun _ => pm) [ent k] j = [] := by
      unfold contrib
      rw [List.filterMap_cons_none]
      · rfl
      · rw [b4]; split <;> rfl
    rw [this]; rfl

theorem COO.spmspv_adds {t : COO E} {ent : Nat → Nat × Nat × E} (h : t.Ok ent) (hp : t.Parts) {xs : Arr T × Arr Word}
    (hx : POk t.n xs) {mul : E → T → U → U} {pm : E → T → U} (hm : ∀ e x old, mul e x old = pm e x) (add : U → U → U)
    (old : Nat → U) :
    KernelAdds t.m add (pview t.n xs) pm (t.spmspv mul add old xs.1 xs.2) ((List.range t.nnz).map ent) := by
  have hple : ∀ p, p ≤ t.np → t.ps.get p ≤ t.nnz := by
    intro p hpp
    rw [← hp.pm]; exact mono_le hp.pmono hpp (Nat.le_refl _)
  have key := KernelAdds.forLoop (cap := t.m) (add := add) (xm := pview t.n xs) (pm := pm) (lo := 0) (hi := t.np)
    (body := fun p st => GraphMat.forLoop (t.ps.get p) (t.ps.get (p + 1)) st (cooEntry t mul add old xs.1 xs.2))
    (L := fun p => (List.range' (t.ps.get p) (t.ps.get (p + 1) - t.ps.get p)).flatMap (fun k => [ent k]))
    (fun p _ hpp => KernelAdds.forLoop (fun k _ h2 => cooEntry_adds h hx hm add old (by
      have := hple (p + 1) (by omega)
      omega)))
  rw [Nat.sub_zero, ← List.range_eq_range', flatMap_nest t.ps.get t.np hp.p0 hp.pmono, hp.pm] at key
  have e : (List.range t.nnz).flatMap (fun k => [ent k]) = (List.range t.nnz).map ent := by
    rw [List.map_eq_flatMap]
  rw [e] at key
  refine key.congr ?_
  intro st _
  unfold COO.spmspv
  refine forLoop_congr ?_
  intro p st _ hpp
  simp only [Option.bind_eq_bind]
  rw [Arr.read_some (by rw [hp.psz]; omega), Option.bind_some, Arr.read_some (by rw [hp.psz]; omega), Option.bind_some]

/-! ### `mult_segment` -/

theorem multWith_spec {m : Nat} {sx : Segment T} {sy : Segment U} (hy : sy.WF) (cy : sy.capacity = m) (g : Fresh U)
    {add : U → U → U} {pm : E → T → U} {kernel : Segment T → Arr U × Arr Word → Option (Arr U × Arr Word)}
    {l : List (Nat × Nat × E)} (hk : KernelAdds m add sx.view pm (kernel sx) l) :
    ∃ sy', multWith g kernel sx sy = some sy' ∧ sy'.WF ∧ sy'.Ready ∧ sy'.capacity = sy.capacity ∧
      ∀ i, sy'.view i = accum add (sy.view i) (contrib sx.view (fun _ => pm) l i) := by
  obtain ⟨b, hb, hu, hd, ht, hv, _⟩ := sy.alloc_initialize hy g
  unfold multWith
  rw [hb]
  simp only [Option.bind_eq_bind, Option.bind_some]
  have hpok : POk m (b.value, b.bits) := ⟨by rw [← cy]; exact hd.value, by rw [← cy, ← hy.ni]; exact hd.bits,
    by rw [← cy]; exact ht⟩
  obtain ⟨st', f1, f2, f3⟩ := hk (b.value, b.bits) hpok
  rw [f1, Option.bind_some]
  obtain ⟨s', s1, s2, s3, s4, s5, s6, s7⟩ := storeResult_spec (s := { sy with props := some b })
    (hy.congr_props hd (fun _ => ht)) (b := b) hd hu (st := st') (by rw [cy]; exact f2)
  refine ⟨s', s1, s2, s3, s4, ?_⟩
  intro i
  rw [s7]
  show pview sy.capacity st' i = _
  rw [cy, f3, ← hv, Buffer.pview_eq hd hu, cy]

end GraphMat

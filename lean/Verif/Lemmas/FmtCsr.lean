import Verif.Lemmas.FmtKernel
import Verif.Props.BinSearch
import Verif.Lemmas.Compress

/-!
# The constructor and `get_edges` of CSR tiles
-/
namespace GraphMat

variable {E T U α : Type}

theorem fillFrom_spec (g : Nat → α) (l : List α) :
    ∃ b, fillFrom g l = some b ∧ b.size = l.length ∧ ∀ k (hk : k < l.length), b.get k = l[k] := by
  unfold fillFrom
  simp only [Option.bind_eq_bind]
  obtain ⟨b, h1, h2, h3⟩ := forLoop_inv (σ := Arr α) (lo := 0) (hi := l.length) (s := ⟨l.length, g⟩)
    (body := fun i a => (l[i]?).bind (fun x => a.write i x))
    (fun i a => a.size = l.length ∧ ∀ k (hk : k < l.length), k < i → a.get k = l[k]) (by omega)
    ⟨rfl, fun k _ h => by omega⟩ (by
      intro i a _ hi hinv
      rw [List.getElem?_eq_getElem hi, Option.bind_some, Arr.write_some (by rw [hinv.1]; exact hi)]
      refine ⟨_, rfl, hinv.1, ?_⟩
      intro k hk hki
      by_cases he : k = i
      · subst he; simp
      · rw [Arr.upd_get_ne _ _ he]; exact hinv.2 k hk (by omega))
  exact ⟨b, h1, h2, fun k hk => h3 k hk hk⟩

/-- The edge at the local position `x` of a tile. -/
def unlocal (rs cs : Nat) (x : Nat × Nat × E) : Edge E :=
  { src := (rs : Int) + x.1 + 1, dst := (cs : Int) + x.2.1 + 1, val := x.2.2 }

theorem unlocal_localOf {m n rs cs : Nat} {e : Edge E} (h : InTile m n rs cs e) : unlocal rs cs (localOf rs cs e) = e := by
  unfold unlocal localOf
  obtain ⟨h1, h2, h3, h4⟩ := h
  cases e with
  | mk s d v =>
    simp only at *
    congr 1 <;> omega

/-- The entries of a list of edges, by position. -/
def entOf (rs cs : Nat) (d : Edge E) (es : List (Edge E)) (k : Nat) : Nat × Nat × E := localOf rs cs (es.getD k d)

theorem entOf_eq {rs cs : Nat} {d : Edge E} {es : List (Edge E)} {k : Nat} (hk : k < es.length) :
    entOf rs cs d es k = localOf rs cs es[k] := by
  unfold entOf; rw [List.getD_eq_getElem?_getD, List.getElem?_eq_getElem hk]; rfl

theorem entOf_map (rs cs : Nat) (d : Edge E) (es : List (Edge E)) :
    (List.range es.length).map (entOf rs cs d es) = es.map (localOf rs cs) := by
  apply List.ext_getElem
  · simp
  · intro k h1 h2
    simp only [List.length_map, List.length_range] at h1
    simp only [List.getElem_map, List.getElem_range]
    exact entOf_eq h1

theorem compareSrcDst_eq (a b : Edge E) :
    compareSrcDst a b = decide (a.src < b.src ∨ (a.src = b.src ∧ a.dst < b.dst)) := by
  unfold compareSrcDst
  split
  · simp; omega
  · split
    · simp; omega
    · split
      · simp; omega
      · split <;> · simp; omega

/-- Sorted edges have sorted source ids. -/
theorem sorted_src {sort : List (Edge E) → List (Edge E)} (hsort : SortsBy compareSrcDst sort) (edges : List (Edge E))
    {i j : Nat} (hij : i ≤ j) (hj : j < (sort edges).length) : (sort edges)[i].src ≤ (sort edges)[j].src := by
  rcases Nat.lt_or_ge i j with h | h
  · have := (List.pairwise_iff_getElem.mp (hsort edges).2) i j (by omega) hj h
    rw [compareSrcDst_eq] at this
    simp at this
    omega
  · have : i = j := by omega
    subst this; exact Int.le_refl _

/-! ### The row pointers -/

/-- `c` entries of the sorted array `v` are at most `x`. -/
def Cut (v : Arr Int) (n : Nat) (x : Int) (c : Nat) : Prop := c ≤ n ∧ ∀ k, k < n → (k < c ↔ v.get k ≤ x)

theorem Cut.exists {v : Arr Int} {n : Nat} (hv : SortedArr v n) (x : Int) : ∃ c, Cut v n x c := by
  induction n with
  | zero => exact ⟨0, Nat.le_refl _, fun k hk => by omega⟩
  | succ n ih =>
    obtain ⟨c, h1, h2⟩ := ih (fun i j hij hj => hv i j hij (by omega))
    by_cases hx : v.get n ≤ x
    · refine ⟨n + 1, Nat.le_refl _, fun k hk => ⟨fun _ => ?_, fun _ => hk⟩⟩
      have := hv k n (by omega) (by omega)
      omega
    · refine ⟨c, by omega, fun k hk => ?_⟩
      rcases Nat.lt_or_ge k n with h | h
      · exact h2 k h
      · have : k = n := by omega
        subst this
        exact ⟨fun h => by omega, fun h => absurd h hx⟩

theorem Cut.mono {v : Arr Int} {n : Nat} {x y : Int} {c d : Nat} (hc : Cut v n x c) (hd : Cut v n y d) (hxy : x ≤ y) :
    c ≤ d := by
  rcases Nat.lt_or_ge d c with h | h
  · have h1 := (hc.2 d (by have := hc.1; omega)).mp h
    have h2 := (hd.2 d (by have := hc.1; omega)).mpr (by omega)
    omega
  · exact h

theorem csrFindStart_spec {jia : Arr Int} {nnz m : Nat} (hsz : jia.size = nnz) (hn : 0 < nnz) (hs : SortedArr jia nnz)
    {c : Nat → Nat} (hc : ∀ i : Nat, Cut jia nnz i (c i)) (hcm : c m = nnz) :
    ∀ k row, row + k = m → csrFindStart jia nnz k row = some (c row) := by
  intro k
  induction k with
  | zero => intro row h; rw [csrFindStart, ← hcm]; congr 2; omega
  | succ k ih =>
    intro row hrow
    rw [csrFindStart]
    simp only [Option.bind_eq_bind]
    rw [Arr.read_some (by omega), Option.bind_some]
    have hcr := hc row
    by_cases h1 : (row : Int) + 1 < jia.get 0
    · rw [if_pos h1]
      congr 1
      rcases Nat.eq_zero_or_pos (c row) with h | h
      · exact h.symm
      · have := (hcr.2 0 hn).mp h; omega
    · rw [if_neg h1, readI_nat (by omega) (by omega), Option.bind_some]
      have e : ((nnz : Int) - 1).toNat = nnz - 1 := by omega
      rw [e]
      by_cases h2 : (row : Int) + 1 > jia.get (nnz - 1)
      · rw [if_pos h2]
        congr 1
        have := (hcr.2 (nnz - 1) (by omega)).mpr (by omega)
        have := hcr.1
        omega
      · rw [if_neg h2]
        obtain ⟨r, r1, r2⟩ := leftBorder_full jia ((row : Int) + 1) (by rw [hsz]; exact hs)
        rw [hsz] at r1
        rw [r1, Option.bind_some]
        rcases r2 with ⟨r2, r3⟩ | ⟨q, r2, r3⟩
        · rw [if_pos r2, ih (row + 1) (by omega)]
          congr 1
          have hcr1 := hc (row + 1)
          have hle := hcr.mono hcr1 (by push_cast; omega)
          rcases Nat.lt_or_ge (c row) (c (row + 1)) with h | h
          · have hb := hcr1.1
            have a1 := (hcr1.2 (c row) (by omega)).mp h
            have a2 : ¬ jia.get (c row) ≤ row := fun hh => Nat.lt_irrefl _ ((hcr.2 (c row) (by omega)).mpr hh)
            have a3 := r3 (c row) (by omega)
            push_cast at a1
            omega
          · omega
        · rw [if_neg (by omega), r2, natIdx_nat]
          congr 1
          obtain ⟨q1, q2, q3⟩ := r3
          rw [hsz] at q1
          have a1 := hcr.2 q q1
          rcases Nat.lt_trichotomy q (c row) with h | h | h
          · have := a1.mp h; omega
          · exact h
          · exfalso
            have hb : c row < nnz := by omega
            have a2 : ¬ jia.get (c row) ≤ row := fun hh => Nat.lt_irrefl _ ((hcr.2 (c row) hb).mpr hh)
            have a3 := hs (c row) q (by omega) q1
            have a4 := q3 (c row) h
            omega

theorem csrWhile_spec {jia : Arr Int} {nnz : Nat} {c : Nat → Nat} (hc : ∀ i : Nat, Cut jia nnz i (c i)) {i e s m : Nat}
    (hi : i < nnz) (hem : e ≤ m) :
    ∀ k cur (ia : Arr Nat), cur + k = e → s ≤ cur → ia.size = m + 1 → i ≤ c cur →
      (∀ r, s ≤ r → r < cur → ia.get r = c r + 1) →
      ∃ ia' cur', csrWhile (jia.get i) i k ia cur = some (ia', cur') ∧ ia'.size = m + 1 ∧ cur ≤ cur' ∧ cur' ≤ e ∧
        (∀ r, s ≤ r → r < cur' → ia'.get r = c r + 1) ∧ (cur' < e → i + 1 ≤ c cur') ∧
        (∀ r, r < s → ia'.get r = ia.get r) := by
  intro k
  induction k with
  | zero =>
    intro cur ia h1 h2 h3 h4 h5
    exact ⟨ia, cur, rfl, h3, Nat.le_refl _, by omega, h5, fun h => by omega, fun _ _ => rfl⟩
  | succ k ih =>
    intro cur ia h1 h2 h3 h4 h5
    rw [csrWhile]
    have hcc := (hc cur).2 i hi
    by_cases hx : jia.get i > cur
    · rw [if_pos hx]
      simp only [Option.bind_eq_bind]
      rw [Arr.write_some (by omega), Option.bind_some]
      have hci : c cur = i := by
        rcases Nat.lt_or_ge i (c cur) with h | h
        · have := hcc.mp h; omega
        · omega
      obtain ⟨ia', cur', a1, a2, a3, a4, a5, a6, a7⟩ := ih (cur + 1) (ia.upd cur (i + 1)) (by omega) (by omega) h3 (by
          have := (hc cur).mono (hc (cur + 1)) (by push_cast; omega)
          omega) (by
          intro r hr1 hr2
          by_cases he : r = cur
          · subst he; simp [hci]
          · rw [Arr.upd_get_ne _ _ he]; exact h5 r hr1 (by omega))
      refine ⟨ia', cur', a1, a2, by omega, a4, a5, a6, ?_⟩
      intro r hr
      rw [a7 r hr, Arr.upd_get_ne _ _ (by omega)]
    · rw [if_neg hx]
      refine ⟨ia, cur, rfl, h3, Nat.le_refl _, by omega, h5, fun _ => ?_, fun _ _ => rfl⟩
      have := hcc.mpr (by omega)
      omega

theorem csrPart_spec {jia : Arr Int} {nnz m : Nat} (hsz : jia.size = nnz) (hn : 0 < nnz) (hs : SortedArr jia nnz)
    {c : Nat → Nat} (hc : ∀ i : Nat, Cut jia nnz i (c i)) (hcm : c m = nnz) (rpp p : Nat) (ia : Arr Nat)
    (hia : ia.size = m + 1) (hinv : ∀ r, r < min (rpp * p) m → ia.get r = c r + 1) :
    ∃ ia', csrPart jia nnz m rpp p ia = some ia' ∧ ia'.size = m + 1 ∧
      ∀ r, r < min (rpp * (p + 1)) m → ia'.get r = c r + 1 := by
  unfold csrPart
  simp only [Option.bind_eq_bind]
  obtain ⟨s, hse⟩ : ∃ s, s = min (rpp * p) m := ⟨_, rfl⟩
  obtain ⟨e, hee⟩ : ∃ e, e = min (rpp * (p + 1)) m := ⟨_, rfl⟩
  have hle : s ≤ e := by rw [hse, hee, Nat.mul_add]; omega
  rw [← hse] at hinv ⊢
  rw [← hee]
  have hem : e ≤ m := by omega
  rw [csrFindStart_spec hsz hn hs hc hcm (m - s) s (by omega), Option.bind_some, Arr.write_some (by omega),
    Option.bind_some]
  obtain ⟨st, f1, f2, f3, f4, f5, f6, f7⟩ := forLoop_inv (σ := Arr Nat × Nat) (lo := c s) (hi := nnz)
    (s := (ia.upd s (c s), s))
    (body := fun i st => if st.2 ≥ e then some st else (jia.read i).bind fun x => csrWhile x i (e - st.2) st.1 st.2)
    (fun i st => st.1.size = m + 1 ∧ s ≤ st.2 ∧ st.2 ≤ e ∧ (∀ r, s ≤ r → r < st.2 → st.1.get r = c r + 1) ∧
      (st.2 < e → i ≤ c st.2) ∧ (∀ r, r < s → st.1.get r = ia.get r))
    (hc s).1
    ⟨hia, Nat.le_refl _, hle, fun r h1 h2 => by omega, fun _ => Nat.le_refl _,
      fun r hr => Arr.upd_get_ne _ _ (by omega)⟩ (by
      intro i st _ hi hst
      obtain ⟨i1, i2, i3, i4, i5, i6⟩ := hst
      by_cases hge : st.2 ≥ e
      · rw [if_pos hge]
        exact ⟨st, rfl, i1, i2, i3, i4, fun h => by omega, i6⟩
      · rw [if_neg hge, Arr.read_some (by omega), Option.bind_some]
        obtain ⟨ia', cur', a1, a2, a3, a4, a5, a6, a7⟩ := csrWhile_spec hc hi hem (e - st.2) st.2 st.1 (by omega) i2 i1
          (i5 (by omega)) i4
        exact ⟨(ia', cur'), a1, a2, by show s ≤ cur'; omega, a4, a5, a6, fun r hr => by
          show ia'.get r = _
          rw [a7 r hr, i6 r hr]⟩)
  rw [f1, Option.bind_some]
  obtain ⟨ia', g1, g2, g3⟩ := forLoop_inv (σ := Arr Nat) (lo := st.2) (hi := e) (s := st.1)
    (body := fun r ia => ia.write r (nnz + 1))
    (fun q ia' => ia'.size = m + 1 ∧ ∀ r, r < q → ia'.get r = c r + 1)
    f4 ⟨f2, fun r hr => by
      rcases Nat.lt_or_ge r s with h | h
      · rw [f7 r h]; exact hinv r h
      · exact f5 r h hr⟩ (by
      intro q ia' h1 h2 hi
      rw [Arr.write_some (by omega)]
      refine ⟨_, rfl, hi.1, ?_⟩
      intro r hr
      by_cases he : r = q
      · subst he
        rw [Arr.upd_get_self]
        have a1 := f6 (by omega)
        have a2 := (hc st.2).mono (hc r) (by omega)
        have a3 := (hc r).1
        omega
      · rw [Arr.upd_get_ne _ _ he]; exact hi.2 r (by omega))
  exact ⟨ia', g1, g2, g3⟩

theorem ceil_cover {m np : Nat} (hnp : 0 < np) : m ≤ (m + np - 1) / np * np := by
  have := Nat.lt_mul_div_succ (m + np - 1) hnp
  rw [Nat.mul_add] at this
  rw [Nat.mul_comm]
  omega

/-- **CSR tiles**: the constructor never fails on edges that lie in the tile, and stores them in sorted order. -/
theorem CSR.build_spec (g : FmtFresh E) {threads : Nat} (ht : 0 < threads)
    {sort : List (Edge E) → List (Edge E)} (hsort : SortsBy compareSrcDst sort)
    {edges : List (Edge E)} {m n rs cs : Nat} (hin : ∀ e ∈ edges, InTile m n rs cs e) (d : Edge E)
    (hlen : 0 < edges.length) :
    ∃ t c, CSR.build g threads sort edges m n rs cs = some (sort edges, t) ∧ t.m = m ∧ t.n = n ∧
      t.nnz = (sort edges).length ∧ t.Ok c (entOf rs cs d (sort edges)) := by
  unfold CSR.build
  simp only [Option.bind_eq_bind]
  rw [if_pos hlen]
  have hperm := (hsort edges).1
  have hlen' : 0 < (sort edges).length := by rw [hperm.length_eq]; exact hlen
  have hin' : ∀ e ∈ sort edges, InTile m n rs cs e := fun e he => hin e (hperm.mem_iff.mp he)
  have hss := @sorted_src E sort hsort edges
  obtain ⟨es, hes⟩ : ∃ es, es = sort edges := ⟨_, rfl⟩
  rw [← hes] at hlen' hin' ⊢
  have hss : ∀ i j (hij : i ≤ j) (hj : j < es.length), es[i].src ≤ es[j].src := by
    intro i j hij hj
    subst hes
    exact hss hij hj
  obtain ⟨a, a1, a2, a3⟩ := fillFrom_spec g.vals (es.map (·.val))
  obtain ⟨ja, b1, b2, b3⟩ := fillFrom_spec (g.ints 0) (es.map (fun e => e.dst - (cs : Int)))
  obtain ⟨jia, c1, c2, c3⟩ := fillFrom_spec (g.ints 1) (es.map (fun e => e.src - (rs : Int)))
  rw [a1, Option.bind_some, b1, Option.bind_some, c1, Option.bind_some, if_neg (by omega)]
  simp only [List.length_map, List.getElem_map] at a2 a3 b2 b3 c2 c3
  have hs : SortedArr jia es.length := by
    intro i j hij hj
    rw [c3 i (by omega), c3 j hj]
    have := hss i j hij hj
    omega
  have hce : ∀ i : Nat, ∃ c, Cut jia es.length i c := fun i => Cut.exists hs i
  choose c hc using hce
  have hc0 : c 0 = 0 := by
    rcases Nat.eq_zero_or_pos (c 0) with h | h
    · exact h
    · have h1 := ((hc 0).2 0 hlen').mp h
      rw [c3 0 hlen'] at h1
      have := (hin' _ (List.getElem_mem hlen')).1
      push_cast at h1
      omega
  have hcm : c m = es.length := by
    have h1 := ((hc m).2 (es.length - 1) (by omega)).mpr (by
      rw [c3 _ (by omega)]
      have := (hin' _ (List.getElem_mem (show es.length - 1 < es.length by omega))).2.1
      omega)
    have := (hc m).1
    omega
  obtain ⟨np, hnp⟩ : ∃ np, np = threads * 4 := ⟨_, rfl⟩
  rw [← hnp]
  obtain ⟨ia, d1, d2, d3⟩ := forLoop_inv (σ := Arr Nat) (lo := 0) (hi := np) (s := ⟨m + 1, g.nats 0⟩)
    (body := csrPart jia es.length m ((m + np - 1) / np))
    (fun p ia => ia.size = m + 1 ∧ ∀ r, r < min ((m + np - 1) / np * p) m → ia.get r = c r + 1)
    (by omega) ⟨rfl, fun r hr => by simp at hr⟩
    (fun p ia _ _ hi => csrPart_spec c2 hlen' hs hc hcm _ p ia hi.1 hi.2)
  have hcov := ceil_cover (m := m) (np := np) (by omega)
  rw [Nat.min_eq_right hcov] at d3
  rw [d1, Option.bind_some, Arr.write_some (by omega), Option.bind_some]
  refine ⟨_, c, rfl, rfl, rfl, rfl, ⟨a2, b2, d2, ?_, ?_, ?_, ?_, hc0, hcm, ?_, ?_⟩⟩
  · intro k hk
    rw [entOf_eq hk]
    exact a3 k hk
  · intro k hk
    rw [entOf_eq hk]
    have hk' : k < es.length := hk
    have := (hin' _ (List.getElem_mem hk')).2.2.1
    show ja.get k = ((es[k].dst - 1 - cs).toNat : Int) + 1
    rw [b3 k hk]
    omega
  · intro k hk
    rw [entOf_eq hk]
    have hk' : k < es.length := hk
    have := (hin' _ (List.getElem_mem hk')).2.2
    show (es[k].dst - 1 - cs).toNat < n
    omega
  · intro i hi
    have hi : i ≤ m := hi
    by_cases he : i = m
    · subst he
      show (ia.upd i (es.length + 1)).get i = _
      rw [Arr.upd_get_self, hcm]
    · show (ia.upd m (es.length + 1)).get i = _
      rw [Arr.upd_get_ne _ _ he]
      exact d3 i (by omega)
  · intro i hi
    exact (hc i).mono (hc (i + 1)) (by push_cast; omega)
  · intro i hi k h1 h2
    have hk : k < es.length := by
      have := (hc (i + 1)).1
      omega
    rw [entOf_eq hk]
    show (es[k].src - 1 - rs).toNat = i
    have e1 := ((hc (i + 1)).2 k hk).mp h2
    have e2 : ¬ jia.get k ≤ i := fun hh => by
      have := ((hc i).2 k hk).mpr hh
      omega
    rw [c3 k hk] at e1 e2
    push_cast at e1
    omega

/-- `get_edges` returns the entries in stored order, whatever was in the buffer before. -/
theorem CSR.Ok.getEdges {t : CSR E} {c : Nat → Nat} {ent : Nat → Nat × Nat × E} (h : t.Ok c ent) (g : Nat → Edge E)
    (rs cs : Nat) : t.getEdges g rs cs = some ((List.range t.nnz).map (fun k => unlocal rs cs (ent k))) := by
  unfold CSR.getEdges
  simp only [Option.bind_eq_bind]
  by_cases hn : t.nnz > 0
  · rw [if_pos hn]
    obtain ⟨out, h1, h2, h3⟩ := forLoop_inv (σ := Arr (Edge E)) (lo := 0) (hi := t.m) (s := ⟨t.nnz, g⟩)
      (body := fun i out => (t.ia.read i).bind fun lo => (t.ia.read (i + 1)).bind fun hi =>
        forLoop lo hi out fun nz out => (pred1 nz).bind fun k => (t.ja.read k).bind fun j => (t.a.read k).bind fun v =>
          out.write k { src := (i : Int) + rs + 1, dst := j + cs, val := v })
      (fun i out => out.size = t.nnz ∧ ∀ k, k < c i → out.get k = unlocal rs cs (ent k)) (by omega)
      ⟨rfl, fun k hk => by rw [h.c0] at hk; omega⟩ (by
        intro i out _ hi hinv
        rw [Arr.read_some (by rw [h.isz]; omega), Option.bind_some, Arr.read_some (by rw [h.isz]; omega),
          Option.bind_some, h.ptr i (by omega), h.ptr (i + 1) (by omega)]
        have hmono := h.mono i hi
        have hle := h.le (i := i + 1) (by omega)
        obtain ⟨out', g1, g2⟩ := forLoop_inv (σ := Arr (Edge E)) (lo := c i + 1) (hi := c (i + 1) + 1) (s := out)
          (body := fun nz out => (pred1 nz).bind fun k => (t.ja.read k).bind fun j => (t.a.read k).bind fun v =>
            out.write k { src := (i : Int) + rs + 1, dst := j + cs, val := v })
          (fun q out => out.size = t.nnz ∧ ∀ k, k + 1 < q → out.get k = unlocal rs cs (ent k)) (by omega)
          ⟨hinv.1, fun k hk => hinv.2 k (by omega)⟩ (by
            intro q out' q1 q2 qi
            obtain ⟨k, rfl⟩ : ∃ k, q = k + 1 := ⟨q - 1, by omega⟩
            have hk : k < t.nnz := by omega
            show ∃ s', (t.ja.read k).bind _ = some s' ∧ _
            rw [Arr.read_some (by rw [h.jsz]; exact hk), Option.bind_some, Arr.read_some (by rw [h.asz]; exact hk),
              Option.bind_some, Arr.write_some (by rw [qi.1]; exact hk)]
            refine ⟨_, rfl, qi.1, ?_⟩
            intro k' hk'
            by_cases he : k' = k
            · subst he
              rw [Arr.upd_get_self, h.col k' hk, h.val k' hk]
              unfold unlocal
              rw [h.row i hi k' (by omega) (by omega)]
              congr 1 <;> omega
            · rw [Arr.upd_get_ne _ _ he]; exact qi.2 k' (by omega))
        exact ⟨out', g1, g2.1, fun k hk => g2.2 k (by omega)⟩)
    rw [h1, Option.bind_some]
    rw [h.cm] at h3
    unfold Arr.toList
    rw [h2]
    congr 1
    apply List.map_congr_left
    intro k hk
    rw [List.mem_range] at hk
    exact h3 k hk
  · rw [if_neg hn]
    have : t.nnz = 0 := by omega
    unfold Arr.toList
    rw [this]; rfl

end GraphMat

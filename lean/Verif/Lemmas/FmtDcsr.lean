import Verif.Lemmas.FmtCsr

/-!
# The constructor and `get_edges` of DCSR tiles
-/
namespace GraphMat

variable {E T U α : Type}

theorem Arr.seen_some_size (a : Arr Int) (x : Int) : (a.seen (some x)).size = a.size + 1 := rfl

theorem Arr.seen_get (a : Arr Int) (b : Option Int) {i : Nat} (h : i < a.size) : (a.seen b).get i = a.get i := by
  cases b with
  | none => rfl
  | some x => show (if i = a.size then x else a.get i) = _; rw [if_neg (by omega)]

/-- The numbering of the rows of sorted edges. -/
structure Numbering (es : List (Edge E)) (ρ : Nat → Nat) : Prop where
  zero : ρ 0 = 0
  step : ∀ i (h : i + 1 < es.length), ρ (i + 1) = if es[i + 1].src > es[i].src then ρ i + 1 else ρ i

theorem dcsrNumber_spec (g : Nat → Nat) (es : List (Edge E)) (hn : 0 < es.length) :
    ∃ tmp, dcsrNumber g es = some tmp ∧ tmp.size = es.length ∧ Numbering es tmp.get := by
  unfold dcsrNumber
  simp only [Option.bind_eq_bind]
  rw [Arr.write_some hn, Option.bind_some]
  obtain ⟨tmp, h1, h2, h3, h4⟩ := forLoop_inv (σ := Arr Nat) (lo := 0) (hi := es.length - 1)
    (s := (⟨es.length, g⟩ : Arr Nat).upd 0 0)
    (body := fun i tmp => (es[i + 1]?).bind fun e1 => (es[i]?).bind fun e0 => (tmp.read i).bind fun x =>
      if e1.src > e0.src then tmp.write (i + 1) (x + 1) else tmp.write (i + 1) x)
    (fun i tmp => tmp.size = es.length ∧ tmp.get 0 = 0 ∧ ∀ k (h : k + 1 < es.length), k < i →
      tmp.get (k + 1) = if es[k + 1].src > es[k].src then tmp.get k + 1 else tmp.get k)
    (by omega) ⟨rfl, rfl, fun k _ h => by omega⟩ (by
      intro i tmp _ hi hinv
      obtain ⟨i1, i2, i3⟩ := hinv
      rw [List.getElem?_eq_getElem (by omega), Option.bind_some, List.getElem?_eq_getElem (by omega), Option.bind_some,
        Arr.read_some (by omega), Option.bind_some]
      have key : ∀ x, (es[i + 1].src > es[i].src → x = tmp.get i + 1) → (¬ es[i + 1].src > es[i].src → x = tmp.get i) →
          ∃ s', tmp.write (i + 1) x = some s' ∧ s'.size = es.length ∧ s'.get 0 = 0 ∧
            ∀ k (h : k + 1 < es.length), k < i + 1 →
              s'.get (k + 1) = if es[k + 1].src > es[k].src then s'.get k + 1 else s'.get k := by
        intro x hx1 hx2
        rw [Arr.write_some (by omega)]
        refine ⟨_, rfl, i1, ?_, ?_⟩
        · rw [Arr.upd_get_ne _ _ (by omega)]; exact i2
        · intro k hk hki
          by_cases he : k = i
          · subst he
            rw [Arr.upd_get_self, Arr.upd_get_ne _ _ (by omega)]
            by_cases hc : es[k + 1].src > es[k].src
            · rw [if_pos hc, hx1 hc]
            · rw [if_neg hc, hx2 hc]
          · rw [Arr.upd_get_ne _ _ (by omega), Arr.upd_get_ne _ _ (by omega)]
            exact i3 k hk (by omega)
      by_cases hc : es[i + 1].src > es[i].src
      · rw [if_pos hc]
        exact key _ (fun _ => rfl) (fun h => absurd hc h)
      · rw [if_neg hc]
        exact key _ (fun h => absurd h hc) (fun _ => rfl))
  exact ⟨tmp, h1, h2, h3, fun i h => h4 i h (by omega)⟩

section
variable {es : List (Edge E)} {ρ : Nat → Nat}

theorem Numbering.mono (h : Numbering es ρ) {i j : Nat} (hij : i ≤ j) (hj : j < es.length) : ρ i ≤ ρ j := by
  induction j with
  | zero => have : i = 0 := by omega
            subst this; exact Nat.le_refl _
  | succ j ih =>
    rcases Nat.lt_or_ge i (j + 1) with hl | hg
    · have h1 := ih (by omega) (by omega)
      have h2 := h.step j hj
      split at h2 <;> omega
    · have : i = j + 1 := by omega
      subst this; exact Nat.le_refl _

theorem Numbering.le (h : Numbering es ρ) {j : Nat} (hj : j < es.length) : ρ j ≤ j := by
  induction j with
  | zero => exact Nat.le_of_eq h.zero
  | succ j ih =>
    have h1 := ih (by omega)
    have h2 := h.step j hj
    split at h2 <;> omega

theorem Numbering.same (h : Numbering es ρ) (hs : ∀ i j (hij : i ≤ j) (hj : j < es.length), es[i].src ≤ es[j].src)
    {i j : Nat} (hij : i ≤ j) (hj : j < es.length) (he : ρ i = ρ j) : es[i].src = es[j].src := by
  induction j with
  | zero => have : i = 0 := by omega
            subst this; rfl
  | succ j ih =>
    rcases Nat.lt_or_ge i (j + 1) with hl | hg
    · have h1 := h.mono (i := i) (j := j) (by omega) (by omega)
      have h2 := h.step j hj
      have h3 := hs j (j + 1) (by omega) hj
      split at h2
      · omega
      · have := ih (by omega) (by omega) (by omega)
        omega
    · have : i = j + 1 := by omega
      subst this; rfl

theorem Numbering.diff (h : Numbering es ρ) {i j : Nat} (hij : i ≤ j) (hj : j < es.length)
    (hs : ∀ i j (hij : i ≤ j) (hj : j < es.length), es[i].src ≤ es[j].src) :
    (ρ j : Int) - ρ i ≤ es[j].src - es[i].src := by
  induction j with
  | zero => have : i = 0 := by omega
            subst this; omega
  | succ j ih =>
    rcases Nat.lt_or_ge i (j + 1) with hl | hg
    · have h1 : (ρ j : Int) - ρ i ≤ es[j].src - es[i].src := ih (by omega) (by omega) hs
      have h2 := h.step j hj
      have h3 := hs j (j + 1) (by omega) hj
      split at h2 <;> omega
    · have : i = j + 1 := by omega
      subst this; omega

/-- First position of row number `q`. -/
def FirstOf (es : List (Edge E)) (ρ : Nat → Nat) (q c : Nat) : Prop :=
  c ≤ es.length ∧ ∀ k, k < es.length → (k < c ↔ ρ k < q)

theorem Numbering.first (h : Numbering es ρ) (q : Nat) : ∃ c, FirstOf es ρ q c := by
  have key : ∀ n, n ≤ es.length → ∃ c, c ≤ n ∧ ∀ k, k < n → (k < c ↔ ρ k < q) := by
    intro n
    induction n with
    | zero => intro _; exact ⟨0, Nat.le_refl _, fun k hk => by omega⟩
    | succ n ih =>
      intro hn
      obtain ⟨c, h1, h2⟩ := ih (by omega)
      by_cases hx : ρ n < q
      · refine ⟨n + 1, Nat.le_refl _, fun k hk => ⟨fun _ => ?_, fun _ => hk⟩⟩
        have := h.mono (i := k) (j := n) (by omega) (by omega)
        omega
      · refine ⟨c, by omega, fun k hk => ?_⟩
        rcases Nat.lt_or_ge k n with h | h
        · exact h2 k h
        · have : k = n := by omega
          subst this
          exact ⟨fun h => by omega, fun h => absurd h hx⟩
  exact key es.length (Nat.le_refl _)

theorem FirstOf.eq {q c k : Nat} (h : FirstOf es ρ q c) (hk : k < es.length) (h1 : ρ k = q)
    (h2 : ∀ j, j + 1 = k → ρ j < q) : c = k := by
  have a1 := (h.2 k hk)
  rcases Nat.lt_trichotomy c k with hl | hl | hl
  · obtain ⟨j, rfl⟩ : ∃ j, k = j + 1 := ⟨k - 1, by omega⟩
    have := (h.2 j (by omega)).mpr (h2 j rfl)
    omega
  · exact hl
  · have := a1.mp hl; omega

end

theorem dcsrRows_spec (gi : Nat → Int) (gn : Nat → Nat) {es : List (Edge E)} (rs : Nat) {tmp : Arr Nat}
    (hsz : tmp.size = es.length) (hn : 0 < es.length) (h : Numbering es tmp.get) {numRows : Nat}
    (hnr : numRows = tmp.get (es.length - 1) + 1) {c : Nat → Nat} (hc : ∀ q, FirstOf es tmp.get q (c q)) :
    ∃ ri, dcsrRows gi gn es rs numRows tmp = some ri ∧ ri.1.size = numRows ∧ ri.2.size = numRows + 1 ∧
      (∀ q, q ≤ numRows → ri.2.get q = c q) ∧
      ∀ q, q < numRows → ∃ hq : c q < es.length, ri.1.get q = es[c q].src - (rs : Int) - 1 := by
  have hc0 : c 0 = 0 := (hc 0).eq hn h.zero (fun j hj => by omega)
  have hcN : c numRows = es.length := by
    have h1 := ((hc numRows).2 (es.length - 1) (by omega)).mpr (by omega)
    have := (hc numRows).1
    omega
  unfold dcsrRows
  simp only [Option.bind_eq_bind]
  rw [List.getElem?_eq_getElem hn, Option.bind_some, Arr.write_some (show 0 < numRows by omega), Option.bind_some,
    Arr.write_some (show 0 < numRows + 1 by omega), Option.bind_some]
  obtain ⟨st, h1, h2, h3, h4⟩ := forLoop_inv (σ := Arr Int × Arr Nat) (lo := 0) (hi := es.length - 1)
    (s := ((⟨numRows, gi⟩ : Arr Int).upd 0 (es[0].src - (rs : Int) - 1), (⟨numRows + 1, gn⟩ : Arr Nat).upd 0 0))
    (body := fun i st => (es[i + 1]?).bind fun e1 => (es[i]?).bind fun e0 =>
      if e1.src > e0.src then (tmp.read (i + 1)).bind fun k => (st.1.write k (e1.src - (rs : Int) - 1)).bind fun rowIds =>
        (st.2.write k (i + 1)).bind fun ia => some (rowIds, ia)
      else some st)
    (fun i st => st.1.size = numRows ∧ st.2.size = numRows + 1 ∧ ∀ q, q ≤ tmp.get i → st.2.get q = c q ∧
      ∃ hq : c q < es.length, st.1.get q = es[c q].src - (rs : Int) - 1)
    (by omega) ⟨rfl, rfl, fun q hq => by
      have : q = 0 := by have := h.zero; omega
      subst this
      refine ⟨by rw [hc0]; rfl, by rw [hc0]; exact hn, ?_⟩
      show es[0].src - (rs : Int) - 1 = es[c 0].src - (rs : Int) - 1
      congr 4
      exact hc0.symm⟩ (by
      intro i st _ hi hinv
      obtain ⟨i1, i2, i3⟩ := hinv
      have hstep := h.step i (by omega)
      rw [List.getElem?_eq_getElem (by omega), Option.bind_some, List.getElem?_eq_getElem (by omega), Option.bind_some]
      by_cases hgt : es[i + 1].src > es[i].src
      · rw [if_pos hgt] at hstep
        have hb := h.mono (i := i + 1) (j := es.length - 1) (by omega) (by omega)
        rw [if_pos hgt, Arr.read_some (by omega), Option.bind_some, Arr.write_some (by omega), Option.bind_some,
          Arr.write_some (by omega), Option.bind_some]
        refine ⟨_, rfl, i1, i2, ?_⟩
        intro q hq
        by_cases he : q = tmp.get (i + 1)
        · have hci : c q = i + 1 := (hc q).eq (by omega) he.symm (fun j hj => by
            have : j = i := by omega
            subst this; omega)
          refine ⟨?_, by omega, ?_⟩
          · show (st.2.upd (tmp.get (i + 1)) (i + 1)).get q = _
            rw [he, Arr.upd_get_self, ← he, hci]
          · show (st.1.upd (tmp.get (i + 1)) (es[i + 1].src - (rs : Int) - 1)).get q = _
            refine (congrArg (st.1.upd (tmp.get (i + 1)) (es[i + 1].src - (rs : Int) - 1)).get he).trans ?_
            rw [Arr.upd_get_self]
            congr 4
            exact hci.symm
        · obtain ⟨j1, j2, j3⟩ := i3 q (by omega)
          refine ⟨?_, j2, ?_⟩
          · show (st.2.upd (tmp.get (i + 1)) (i + 1)).get q = _
            rw [Arr.upd_get_ne _ _ he]; exact j1
          · show (st.1.upd (tmp.get (i + 1)) (es[i + 1].src - (rs : Int) - 1)).get q = _
            rw [Arr.upd_get_ne _ _ he]; exact j3
      · rw [if_neg hgt] at hstep
        rw [if_neg hgt]
        exact ⟨st, rfl, i1, i2, fun q hq => i3 q (by omega)⟩)
  rw [h1, Option.bind_some, Arr.write_some (by omega), Option.bind_some]
  refine ⟨_, rfl, h2, h3, ?_, ?_⟩
  · intro q hq
    by_cases he : q = numRows
    · show (st.2.upd numRows es.length).get q = _
      rw [he, Arr.upd_get_self, hcN]
    · show (st.2.upd numRows es.length).get q = _
      rw [Arr.upd_get_ne _ _ he]
      exact (h4 q (by omega)).1
  · intro q hq
    exact (h4 q (by omega)).2

theorem dcsrSkip_spec {rowIds : Arr Int} {x : Int} {N : Nat} (hsz : rowIds.size = N) :
    ∀ k r, r + k = N → ∃ r', dcsrSkip rowIds x k r = some r' ∧ r ≤ r' ∧ r' ≤ N ∧
      (r < N → (rowIds.get r).tdiv 32 = x → r < r') := by
  intro k
  induction k with
  | zero => intro r h; exact ⟨r, rfl, Nat.le_refl _, by omega, fun h => by omega⟩
  | succ k ih =>
    intro r h
    rw [dcsrSkip]
    simp only [Option.bind_eq_bind]
    rw [Arr.read_some (by omega), Option.bind_some]
    by_cases he : (rowIds.get r).tdiv 32 = x
    · rw [if_pos he]
      obtain ⟨r', a1, a2, a3, _⟩ := ih (r + 1) (by omega)
      exact ⟨r', a1, by omega, a3, fun _ _ => by omega⟩
    · rw [if_neg he]
      exact ⟨r, rfl, Nat.le_refl _, by omega, fun _ h => absurd h he⟩

/-- With readable memory behind `row_ids` the partitions cover the rows. -/
theorem dcsrParts_spec (x : Int) (g : Nat → Nat) {numRows np : Nat} (hnp : 0 < np) {rowIds : Arr Int}
    (hsz : rowIds.size = numRows) :
    ∃ pp, dcsrParts (some x) g numRows np rowIds = some pp ∧ pp.size = np + 1 ∧ pp.get 0 = 0 ∧ pp.get np = numRows ∧
      ∀ p, p < np → pp.get p ≤ pp.get (p + 1) := by
  unfold dcsrParts
  simp only [Option.bind_eq_bind]
  rw [if_neg (by omega), Arr.write_some (show 0 < np + 1 by omega), Option.bind_some]
  obtain ⟨rpp, hrpp⟩ : ∃ rpp, rpp = (numRows + np - 1) / np := ⟨_, rfl⟩
  rw [← hrpp]
  obtain ⟨pp, h1, h2, h3, h4, h5⟩ := forLoop_inv (σ := Arr Nat) (lo := 1) (hi := np)
    (s := (⟨np + 1, g⟩ : Arr Nat).upd 0 0)
    (body := fun p pp => (pp.read (p - 1)).bind fun prev =>
      ((rowIds.seen (some x)).read (min (prev + rpp) numRows)).bind fun x =>
        (dcsrSkip rowIds (x.tdiv 32) (numRows - min (prev + rpp) numRows) (min (prev + rpp) numRows)).bind fun r =>
          pp.write p r)
    (fun p pp => pp.size = np + 1 ∧ pp.get 0 = 0 ∧ (∀ q, q < p → pp.get q ≤ numRows) ∧
      ∀ q, q + 1 < p → pp.get q ≤ pp.get (q + 1))
    (by omega) ⟨rfl, rfl, fun q hq => by
      have : q = 0 := by omega
      subst this; exact Nat.zero_le _, fun q hq => by omega⟩ (by
      intro p pp hp1 hp2 hinv
      obtain ⟨i1, i2, i3, i4⟩ := hinv
      rw [Arr.read_some (by omega), Option.bind_some, Arr.read_some (by rw [Arr.seen_some_size, hsz]; omega),
        Option.bind_some]
      obtain ⟨r', a1, a2, a3, _⟩ := dcsrSkip_spec (x := ((rowIds.seen (some x)).get
        (min (pp.get (p - 1) + rpp) numRows)).tdiv 32) hsz (numRows - min (pp.get (p - 1) + rpp) numRows)
        (min (pp.get (p - 1) + rpp) numRows) (by omega)
      rw [a1, Option.bind_some, Arr.write_some (by omega)]
      refine ⟨_, rfl, i1, ?_, ?_, ?_⟩
      · rw [Arr.upd_get_ne _ _ (by omega)]; exact i2
      · intro q hq
        by_cases he : q = p
        · subst he; rw [Arr.upd_get_self]; exact a3
        · rw [Arr.upd_get_ne _ _ he]; exact i3 q (by omega)
      · intro q hq
        by_cases he : q + 1 = p
        · rw [he, Arr.upd_get_self, Arr.upd_get_ne _ _ (by omega)]
          have e : p - 1 = q := by omega
          rw [e] at a2
          have := i3 q (by omega)
          omega
        · rw [Arr.upd_get_ne _ _ he, Arr.upd_get_ne _ _ (by omega)]
          exact i4 q (by omega))
  rw [h1, Option.bind_some, Arr.write_some (by omega)]
  refine ⟨_, rfl, h2, ?_, ?_, ?_⟩
  · rw [Arr.upd_get_ne _ _ (by omega)]; exact h3
  · rw [Arr.upd_get_self]
  · intro p hp
    by_cases he : p + 1 = np
    · rw [he, Arr.upd_get_self, Arr.upd_get_ne _ _ (by omega)]
      exact h4 p hp
    · rw [Arr.upd_get_ne _ _ he, Arr.upd_get_ne _ _ (by omega)]
      exact h5 p (by omega)

theorem forLoop_some_inv {σ : Type} {lo hi : Nat} {s s' : σ} {body : Nat → σ → Option σ} (Inv : Nat → σ → Prop)
    (hle : lo ≤ hi) (h0 : Inv lo s) (hstep : ∀ i s s', lo ≤ i → i < hi → body i s = some s' → Inv i s → Inv (i + 1) s')
    (h : forLoop lo hi s body = some s') : Inv hi s' := by
  obtain ⟨k, rfl⟩ : ∃ k, hi = lo + k := ⟨hi - lo, by omega⟩
  clear hle
  induction k generalizing s' with
  | zero => rw [forLoop_empty (by omega)] at h; cases h; exact h0
  | succ k ih =>
    rw [← Nat.add_assoc, forLoop_succ_right (by omega)] at h
    cases hf : forLoop lo (lo + k) s body with
    | none => rw [hf] at h; cases h
    | some s1 =>
      rw [hf] at h
      exact hstep (lo + k) s1 s' (by omega) (by omega) h
        (ih (fun i s s' h1 h2 => hstep i s s' h1 (by omega)) hf)

/-- In strict C++ the partitioning reads behind `row_ids` if there are few rows. -/
theorem dcsrParts_none (g : Nat → Nat) {numRows np : Nat} {rowIds : Arr Int} (h2 : 2 ≤ np)
    (hsz : rowIds.size = numRows) (hN : numRows ≤ np * (np - 2)) :
    dcsrParts none g numRows np rowIds = none := by
  unfold dcsrParts
  simp only [Option.bind_eq_bind]
  rw [if_neg (by omega), Arr.write_some (show 0 < np + 1 by omega), Option.bind_some]
  obtain ⟨rpp, hrpp⟩ : ∃ rpp, rpp = (numRows + np - 1) / np := ⟨_, rfl⟩
  have hcov := ceil_cover (m := numRows) (np := np) (by omega)
  have hup : rpp ≤ np - 2 := by
    have h1 : numRows + np - 1 < np * ((np - 2) + 1) := by rw [Nat.mul_add]; omega
    have h3 := Nat.div_lt_of_lt_mul h1
    omega
  rw [← hrpp] at hcov ⊢
  cases hf : forLoop 1 np ((⟨np + 1, g⟩ : Arr Nat).upd 0 0) (fun p pp => (pp.read (p - 1)).bind fun prev =>
      ((rowIds.seen none).read (min (prev + rpp) numRows)).bind fun x =>
        (dcsrSkip rowIds (x.tdiv 32) (numRows - min (prev + rpp) numRows) (min (prev + rpp) numRows)).bind fun r =>
          pp.write p r) with
  | none => rfl
  | some pp =>
    exfalso
    have hinv := forLoop_some_inv (σ := Arr Nat) (fun p pp => pp.size = np + 1 ∧
        (∀ q, q < p → q * (rpp + 1) ≤ pp.get q) ∧ (1 < p → (p - 2) * (rpp + 1) + rpp < numRows)) (by omega)
      ⟨rfl, fun q hq => by
        have : q = 0 := by omega
        subst this; simp, fun h => by omega⟩ (by
        intro p pp pp' hp1 hp2 hb hi
        obtain ⟨i1, i2, i3⟩ := hi
        rw [Arr.read_some (by omega), Option.bind_some] at hb
        have hprev := i2 (p - 1) (by omega)
        cases hr : (rowIds.seen none).read (min (pp.get (p - 1) + rpp) numRows) with
        | none => rw [hr] at hb; cases hb
        | some x =>
          rw [hr, Option.bind_some] at hb
          obtain ⟨r1, r2⟩ := Arr.read_eq_some.mp hr
          have r1 : min (pp.get (p - 1) + rpp) numRows < rowIds.size := r1
          have hmin : min (pp.get (p - 1) + rpp) numRows = pp.get (p - 1) + rpp := by omega
          rw [hmin] at hb r1 r2
          obtain ⟨r', a1, a2, a3, a4⟩ := dcsrSkip_spec (x := x.tdiv 32) hsz (numRows - (pp.get (p - 1) + rpp))
            (pp.get (p - 1) + rpp) (by omega)
          have a5 := a4 (by omega) (by rw [← r2]; rfl)
          rw [a1, Option.bind_some, Arr.write_some (by omega)] at hb
          cases hb
          have e1 : p * (rpp + 1) = (p - 1) * (rpp + 1) + (rpp + 1) := by
            rw [← Nat.succ_mul]; congr 1; omega
          refine ⟨i1, ?_, ?_⟩
          · intro q hq
            by_cases he : q = p
            · subst he; rw [Arr.upd_get_self]; omega
            · rw [Arr.upd_get_ne _ _ he]; exact i2 q (by omega)
          · intro _
            have e2 : p + 1 - 2 = p - 1 := by omega
            rw [e2]; omega) hf
    have h3 := hinv.2.2 (by omega)
    obtain ⟨k, rfl⟩ : ∃ k, np = k + 2 := ⟨np - 2, by omega⟩
    simp only [Nat.add_sub_cancel] at h3 hup
    rw [Nat.mul_add, Nat.mul_comm rpp, Nat.add_mul] at *
    omega

theorem dcsrFill_spec (gi : Nat → Int) (gv : Nat → E) (es : List (Edge E)) (cs : Nat) {numRows : Nat} {ia : Arr Nat}
    (hsz : ia.size = numRows + 1) {c : Nat → Nat} (hia : ∀ q, q ≤ numRows → ia.get q = c q) (hc0 : c 0 = 0)
    (hcN : c numRows = es.length) (hmono : ∀ q, q < numRows → c q ≤ c (q + 1)) :
    ∃ st, dcsrFill gi gv es cs numRows ia = some st ∧ st.1.size = es.length ∧ st.2.size = es.length ∧
      ∀ k (hk : k < es.length), st.1.get k = es[k].dst - (cs : Int) - 1 ∧ st.2.get k = es[k].val := by
  unfold dcsrFill
  simp only [Option.bind_eq_bind]
  obtain ⟨st, h1, h2, h3, h4⟩ := forLoop_inv (σ := Arr Int × Arr E) (lo := 0) (hi := numRows)
    (s := (⟨es.length, gi⟩, ⟨es.length, gv⟩))
    (body := fun i st => (ia.read i).bind fun lo => (ia.read (i + 1)).bind fun hi => forLoop lo hi st fun j st =>
      (es[j]?).bind fun e => (st.1.write j (e.dst - (cs : Int) - 1)).bind fun ja => (st.2.write j e.val).bind fun a =>
        some (ja, a))
    (fun i st => st.1.size = es.length ∧ st.2.size = es.length ∧
      ∀ k (hk : k < es.length), k < c i → st.1.get k = es[k].dst - (cs : Int) - 1 ∧ st.2.get k = es[k].val)
    (by omega) ⟨rfl, rfl, fun k _ h => by omega⟩ (by
      intro i st _ hi hinv
      rw [Arr.read_some (by omega), Option.bind_some, Arr.read_some (by omega), Option.bind_some, hia i (by omega),
        hia (i + 1) (by omega)]
      have hle : c (i + 1) ≤ es.length := by rw [← hcN]; exact mono_le hmono (by omega) (Nat.le_refl _)
      exact forLoop_inv (σ := Arr Int × Arr E) (lo := c i) (hi := c (i + 1)) (s := st)
        (fun q st => st.1.size = es.length ∧ st.2.size = es.length ∧
          ∀ k (hk : k < es.length), k < q → st.1.get k = es[k].dst - (cs : Int) - 1 ∧ st.2.get k = es[k].val)
        (hmono i hi) hinv (by
          intro j st hj1 hj2 hi
          obtain ⟨i1, i2, i3⟩ := hi
          rw [List.getElem?_eq_getElem (by omega), Option.bind_some, Arr.write_some (by omega), Option.bind_some,
            Arr.write_some (by omega), Option.bind_some]
          refine ⟨_, rfl, i1, i2, ?_⟩
          intro k hk hkj
          by_cases he : k = j
          · subst he
            exact ⟨Arr.upd_get_self _ _ _, Arr.upd_get_self _ _ _⟩
          · have := i3 k hk (by omega)
            exact ⟨(Arr.upd_get_ne _ _ he).trans this.1, (Arr.upd_get_ne _ _ he).trans this.2⟩))
  exact ⟨st, h1, h2, h3, fun k hk => h4 k hk (by omega)⟩

/-- The part of the constructor before the partitioning. -/
theorem dcsr_prepare (g : FmtFresh E) {es : List (Edge E)} {m n rs : Nat} {cs : Nat} (hn : 0 < es.length)
    (hin : ∀ e ∈ es, InTile m n rs cs e) (hs : ∀ i j (hij : i ≤ j) (hj : j < es.length), es[i].src ≤ es[j].src) :
    ∃ (tmp : Arr Nat) (last : Nat) (ri : Arr Int × Arr Nat) (c : Nat → Nat), dcsrNumber (g.nats 3) es = some tmp ∧
      tmp.read (es.length - 1) = some last ∧ dcsrRows (g.ints 2) (g.nats 1) es rs (last + 1) tmp = some ri ∧
      ri.1.size = last + 1 ∧ ri.2.size = last + 2 ∧ last + 1 ≤ m ∧ (∀ q, q ≤ last + 1 → ri.2.get q = c q) ∧
      c 0 = 0 ∧ c (last + 1) = es.length ∧ (∀ q, q < last + 1 → c q ≤ c (q + 1)) ∧
      ∃ r : Nat → Nat, ∀ q, q < last + 1 → ri.1.get q = (r q : Int) ∧ r q < m ∧
        (∀ k (hk : k < es.length), c q ≤ k → k < c (q + 1) → (localOf rs cs es[k]).1 = r q) ∧ ∀ q', q' ≤ q → r q' ≤ r q := by
  obtain ⟨tmp, t1, t2, t3⟩ := dcsrNumber_spec (g.nats 3) es hn
  have hce := fun q => t3.first q
  choose c hc using hce
  obtain ⟨ri, r1, r2, r3, r4, r5⟩ := dcsrRows_spec (g.ints 2) (g.nats 1) rs t2 hn t3 rfl hc
  have hcmono : ∀ q, c q ≤ c (q + 1) := by
    intro q
    rcases Nat.lt_or_ge (c (q + 1)) (c q) with h | h
    · have hb := (hc q).1
      have a1 := ((hc q).2 (c (q + 1)) (by omega)).mp h
      have a2 := ((hc (q + 1)).2 (c (q + 1)) (by omega)).mpr (by omega)
      omega
    · exact h
  have hrow : ∀ q, q < tmp.get (es.length - 1) + 1 → ∃ hq : c q < es.length, tmp.get (c q) = q := by
    intro q hq
    obtain ⟨hq', _⟩ := r5 q hq
    refine ⟨hq', ?_⟩
    have a1 : ¬ tmp.get (c q) < q := fun hh => Nat.lt_irrefl _ (((hc q).2 (c q) hq').mpr hh)
    by_cases hz : c q = 0
    · rw [hz] at a1 ⊢; have := t3.zero; omega
    · have a2 := ((hc q).2 (c q - 1) (by omega)).mp (by omega)
      have a3 := t3.step (c q - 1) (by omega)
      have e : c q - 1 + 1 = c q := by omega
      simp only [e] at a3
      split at a3 <;> omega
  refine ⟨tmp, tmp.get (es.length - 1), ri, c, t1, Arr.read_some (by omega), r1, r2, r3, ?_, r4, ?_, ?_,
    fun q _ => hcmono q, fun q => (((es.getD (c q) es[0]).src - 1 - rs).toNat), ?_⟩
  · have h1 := t3.diff (i := 0) (j := es.length - 1) (by omega) (by omega) hs
    have h2 := (hin _ (List.getElem_mem (show es.length - 1 < es.length by omega))).2.1
    have h3 := (hin _ (List.getElem_mem hn)).1
    rw [t3.zero] at h1
    omega
  · exact (hc 0).eq hn t3.zero (fun j hj => by omega)
  · have h1 := ((hc (tmp.get (es.length - 1) + 1)).2 (es.length - 1) (by omega)).mpr (by omega)
    have := (hc (tmp.get (es.length - 1) + 1)).1
    omega
  · intro q hq
    obtain ⟨hq1, hq2⟩ := r5 q hq
    have hin1 := hin _ (List.getElem_mem hq1)
    have e : es.getD (c q) es[0] = es[c q] := by
      rw [List.getD_eq_getElem?_getD, List.getElem?_eq_getElem hq1]; rfl
    have h1 := hin1.1
    have h2 := hin1.2.1
    show ri.1.get q = (((es.getD (c q) es[0]).src - 1 - rs).toNat : Int) ∧
      ((es.getD (c q) es[0]).src - 1 - rs).toNat < m ∧ (∀ k (hk : k < es.length), c q ≤ k → k < c (q + 1) →
        (es[k].src - 1 - rs).toNat = ((es.getD (c q) es[0]).src - 1 - rs).toNat) ∧ ∀ q', q' ≤ q →
          ((es.getD (c q') es[0]).src - 1 - rs).toNat ≤ ((es.getD (c q) es[0]).src - 1 - rs).toNat
    rw [e]
    refine ⟨?_, ?_, ?_, ?_⟩
    · rw [hq2]; omega
    · omega
    · intro k hk hk1 hk2
      congr 3
      obtain ⟨_, hρ⟩ := hrow q hq
      have a1 := ((hc (q + 1)).2 k hk).mp hk2
      have a2 : ¬ tmp.get k < q := fun hh => by
        have := ((hc q).2 k hk).mpr hh
        omega
      exact (t3.same hs hk1 hk (by omega)).symm
    · intro q' hq'
      obtain ⟨hq1', _⟩ := r5 q' (by omega)
      have e' : es.getD (c q') es[0] = es[c q'] := by
        rw [List.getD_eq_getElem?_getD, List.getElem?_eq_getElem hq1']; rfl
      have hcc : c q' ≤ c q := mono_le (m := q) (fun q _ => hcmono q) hq' (Nat.le_refl _)
      have := hs (c q') (c q) hcc hq1
      rw [e']
      omega

/-- The partitions consist of different words of rows. -/
structure DCSR.Words (t : DCSR E) : Prop where
  nonneg : ∀ i, i < t.numRows → 0 ≤ t.rowIds.get i
  incr : ∀ i j, i ≤ j → j < t.numRows → t.rowIds.get i ≤ t.rowIds.get j
  le : ∀ p, p ≤ t.np → t.pp.get p ≤ t.numRows
  pmono : ∀ p, p < t.np → t.pp.get p ≤ t.pp.get (p + 1)
  bound : ∀ p, 0 < p → p < t.np → t.pp.get p < t.numRows →
    0 < t.pp.get p ∧ t.rowIds.get (t.pp.get p - 1) / 32 ≠ t.rowIds.get (t.pp.get p) / 32

theorem dcsrSkip_bound {rowIds : Arr Int} {x : Int} {N : Nat} {k r r' : Nat} (h : dcsrSkip rowIds x k r = some r')
    (hk : r + k = N) : r ≤ r' ∧ r' ≤ N ∧ (r' < N → (rowIds.get r').tdiv 32 ≠ x) ∧
      ∀ i, r ≤ i → i < r' → (rowIds.get i).tdiv 32 = x := by
  induction k generalizing r with
  | zero =>
    injection h with h
    subst h
    exact ⟨Nat.le_refl _, by omega, fun h => by omega, fun i h1 h2 => by omega⟩
  | succ k ih =>
    rw [dcsrSkip] at h
    simp only [Option.bind_eq_bind, Option.bind_eq_some_iff] at h
    obtain ⟨y, hy, h⟩ := h
    have e := (Arr.read_eq_some.mp hy).2
    split_ifs at h with hc
    · obtain ⟨i1, i2, i3, i4⟩ := ih h (by omega)
      refine ⟨by omega, i2, i3, fun i h1 h2 => ?_⟩
      by_cases he : i = r
      · subst he; rw [e]; exact hc
      · exact i4 i (by omega) h2
    · injection h with h
      subst h
      exact ⟨Nat.le_refl _, by omega, fun _ => by rw [e]; exact hc, fun i h1 h2 => by omega⟩

theorem dcsrParts_words {behind : Option Int} {g : Nat → Nat} {numRows np : Nat} {rowIds : Arr Int}
    (hsz : rowIds.size = numRows) {pp : Arr Nat} (h : dcsrParts behind g numRows np rowIds = some pp) :
    (∀ p, p ≤ np → pp.get p ≤ numRows) ∧ (∀ p, p < np → pp.get p ≤ pp.get (p + 1)) ∧
      ∀ p, 0 < p → p < np → pp.get p < numRows →
        0 < pp.get p ∧ (rowIds.get (pp.get p - 1)).tdiv 32 ≠ (rowIds.get (pp.get p)).tdiv 32 := by
  unfold dcsrParts at h
  split_ifs at h with hnp
  simp only [Option.bind_eq_bind] at h
  rw [Arr.write_some (show 0 < np + 1 by omega), Option.bind_some, Option.bind_eq_some_iff] at h
  obtain ⟨pp', h1, h2⟩ := h
  generalize (numRows + np - 1) / np = rpp at h1
  have hinv := forLoop_some_inv (σ := Arr Nat) (fun p pp => (∀ q, q < p → pp.get q ≤ numRows) ∧
      (∀ q, q + 1 < p → pp.get q ≤ pp.get (q + 1)) ∧ ∀ q, 0 < q → q < p → pp.get q < numRows →
        0 < pp.get q ∧ (rowIds.get (pp.get q - 1)).tdiv 32 ≠ (rowIds.get (pp.get q)).tdiv 32) (by omega)
    ⟨fun q hq => by
      have : q = 0 := by omega
      subst this; exact Nat.zero_le _, fun q hq => by omega, fun q h1 h2 => by omega⟩ (by
      intro p pp pp' hp1 hp2 hb hi
      obtain ⟨i1, i2, i3⟩ := hi
      simp only [Option.bind_eq_some_iff] at hb
      obtain ⟨prev, b1, x, b2, r', b3, b4⟩ := hb
      have e1 := (Arr.read_eq_some.mp b1).2
      obtain ⟨c1, c2, c3, c4⟩ := dcsrSkip_bound (N := numRows) b3 (by omega)
      obtain ⟨_, e2⟩ := Arr.write_eq_some.mp b4
      subst e2
      have hprev := i1 (p - 1) (by omega)
      rw [e1] at hprev
      refine ⟨?_, ?_, ?_⟩
      · intro q hq
        by_cases he : q = p
        · subst he; rw [Arr.upd_get_self]; exact c2
        · rw [Arr.upd_get_ne _ _ he]; exact i1 q (by omega)
      · intro q hq
        by_cases he : q + 1 = p
        · rw [he, Arr.upd_get_self, Arr.upd_get_ne _ _ (by omega)]
          have e : p - 1 = q := by omega
          rw [e] at e1
          omega
        · rw [Arr.upd_get_ne _ _ he, Arr.upd_get_ne _ _ (by omega)]
          exact i2 q (by omega)
      · intro q hq1 hq2 hq3
        by_cases he : q = p
        · subst he
          rw [Arr.upd_get_self] at hq3 ⊢
          have d1 := c3 hq3
          obtain ⟨_, d2⟩ := Arr.read_eq_some.mp b2
          rw [Arr.seen_get _ _ (by omega)] at d2
          have d3 : r' ≠ min (prev + rpp) numRows := by
            intro h
            rw [h, d2] at d1
            exact d1 rfl
          refine ⟨by omega, ?_⟩
          rw [c4 (r' - 1) (by omega) (by omega)]
          exact fun h => d1 h.symm
        · rw [Arr.upd_get_ne _ _ he] at hq3 ⊢
          exact i3 q hq1 (by omega) hq3) h1
  obtain ⟨i1, i2, i3⟩ := hinv
  obtain ⟨_, e2⟩ := Arr.write_eq_some.mp h2
  subst e2
  refine ⟨?_, ?_, ?_⟩
  · intro p hp
    by_cases he : p = np
    · subst he; rw [Arr.upd_get_self]; exact Nat.le_refl _
    · rw [Arr.upd_get_ne _ _ he]; exact i1 p (by omega)
  · intro p hp
    rw [Arr.upd_get_ne _ _ (by omega : p ≠ np)]
    by_cases he : p + 1 = np
    · rw [he, Arr.upd_get_self]; exact i1 p hp
    · rw [Arr.upd_get_ne _ _ he]; exact i2 p (by omega)
  · intro p hp1 hp2
    rw [Arr.upd_get_ne _ _ (by omega : p ≠ np)]
    exact i3 p hp1 hp2

/-- Whatever is behind `row_ids`: if the constructor succeeds, different partitions belong to different words. -/
theorem DCSR.build_words {behind : Option Int} {g : FmtFresh E} {threads : Nat}
    {sort : List (Edge E) → List (Edge E)} (hsort : SortsBy compareSrcDst sort)
    {edges : List (Edge E)} {m n rs cs : Nat} (hin : ∀ e ∈ edges, InTile m n rs cs e) {t : DCSR E}
    (h : DCSR.build behind g threads sort edges m n rs cs = some t) (hlen : 0 < edges.length) : t.Words := by
  unfold DCSR.build at h
  simp only [Option.bind_eq_bind] at h
  rw [if_pos hlen] at h
  have hperm := (hsort edges).1
  have hlen' : 0 < (sort edges).length := by rw [hperm.length_eq]; exact hlen
  have hin' : ∀ e ∈ sort edges, InTile m n rs cs e := fun e he => hin e (hperm.mem_iff.mp he)
  have hss := @sorted_src E sort hsort edges
  obtain ⟨es, hes⟩ : ∃ es, es = sort edges := ⟨_, rfl⟩
  rw [← hes] at hlen' hin' h
  have hss : ∀ i j (hij : i ≤ j) (hj : j < es.length), es[i].src ≤ es[j].src := by
    intro i j hij hj
    subst hes
    exact hss hij hj
  obtain ⟨tmp, last, ri, c, p1, p2, p3, p4, p5, p6, p7, p8, p9, p10, r, p11⟩ := dcsr_prepare g hlen' hin' hss
  rw [p1, Option.bind_some, p2, Option.bind_some, p3, Option.bind_some] at h
  simp only [Option.bind_eq_some_iff] at h
  obtain ⟨pp, h1, ja, _, h⟩ := h
  injection h with h
  subst h
  obtain ⟨w1, w2, w3⟩ := dcsrParts_words p4 h1
  have nn : ∀ i, i < last + 1 → 0 ≤ ri.1.get i := fun i hi => by rw [(p11 i hi).1]; omega
  refine ⟨nn, ?_, w1, w2, ?_⟩
  · intro i j hij hj
    dsimp only at hj ⊢
    rw [(p11 j hj).1, (p11 i (by omega)).1]
    have := (p11 j hj).2.2.2 i hij
    omega
  · intro p hp1 hp2 hp3
    dsimp only at hp3 ⊢
    obtain ⟨q1, q2⟩ := w3 p hp1 hp2 hp3
    rw [Int.tdiv_eq_ediv_of_nonneg (nn _ (by omega)), Int.tdiv_eq_ediv_of_nonneg (nn _ hp3)] at q2
    exact ⟨q1, q2⟩

/-- **DCSR tiles**: where the memory behind `row_ids` is readable, the constructor never fails on edges that lie in the
tile, and stores them in sorted order, whatever is in that memory. -/
theorem DCSR.build_spec (x : Int) (g : FmtFresh E) {threads : Nat} (ht : 0 < threads)
    {sort : List (Edge E) → List (Edge E)} (hsort : SortsBy compareSrcDst sort)
    {edges : List (Edge E)} {m n rs cs : Nat} (hin : ∀ e ∈ edges, InTile m n rs cs e) (d : Edge E)
    (hlen : 0 < edges.length) :
    ∃ t r c, DCSR.build (some x) g threads sort edges m n rs cs = some t ∧ t.m = m ∧ t.n = n ∧
      t.nnz = (sort edges).length ∧ t.Ok r c (entOf rs cs d (sort edges)) := by
  unfold DCSR.build
  simp only [Option.bind_eq_bind]
  rw [if_pos hlen]
  have hperm := (hsort edges).1
  have hlen' : 0 < (sort edges).length := by rw [hperm.length_eq]; exact hlen
  have hin' : ∀ e ∈ sort edges, InTile m n rs cs e := fun e he => hin e (hperm.mem_iff.mp he)
  have hss := @sorted_src E sort hsort edges
  obtain ⟨es, hes⟩ : ∃ es, es = sort edges := ⟨_, rfl⟩
  rw [← hes] at hlen' hin' ⊢
  have hss : ∀ i j (hij : i ≤ j) (hj : j < es.length), es[i].src ≤ es[j].src := by
    intro i j hij hj
    subst hes
    exact hss hij hj
  obtain ⟨tmp, last, ri, c, p1, p2, p3, p4, p5, p6, p7, p8, p9, p10, r, p11⟩ := dcsr_prepare g hlen' hin' hss
  have hlast : last + 1 ≤ es.length := by
    obtain ⟨tmp', t1, t2, t3⟩ := dcsrNumber_spec (g.nats 3) es hlen'
    rw [p1] at t1
    cases t1
    have h1 := t3.le (j := es.length - 1) (by omega)
    rw [Arr.read_some (by omega)] at p2
    injection p2 with p2
    omega
  obtain ⟨pp, q1, q2, q3, q4, q5⟩ := dcsrParts_spec x (g.nats 2) (np := threads * 4) (by omega) p4
  obtain ⟨ja, f1, f2, f3, f4⟩ := dcsrFill_spec (g.ints 3) g.vals es cs p5 p7 p8 p9 p10
  rw [p1, Option.bind_some, p2, Option.bind_some, p3, Option.bind_some, q1, Option.bind_some, f1, Option.bind_some]
  refine ⟨_, r, c, rfl, rfl, rfl, rfl, ⟨f3, f2, p5, p4, q2, ?_, ?_, ?_, ?_, ?_, p7, p8, p9, p10, ?_, q3, q4, q5, p6, hlast,
    by show 0 < threads * 4; omega⟩⟩
  · intro k hk
    rw [entOf_eq hk]
    exact (f4 k hk).2
  · intro k hk
    rw [entOf_eq hk]
    have hk' : k < es.length := hk
    have := (hin' _ (List.getElem_mem hk')).2.2.1
    show ja.1.get k = ((es[k].dst - 1 - cs).toNat : Int)
    rw [(f4 k hk).1]
    omega
  · intro k hk
    rw [entOf_eq hk]
    have hk' : k < es.length := hk
    have := (hin' _ (List.getElem_mem hk')).2.2
    show (es[k].dst - 1 - cs).toNat < n
    omega
  · intro i hi
    exact (p11 i hi).1
  · intro i hi
    exact (p11 i hi).2.1
  · intro i hi k h1 h2
    have hi : i < last + 1 := hi
    have hk : k < es.length := by
      have : c (i + 1) ≤ es.length := by rw [← p9]; exact mono_le p10 (by omega) (Nat.le_refl _)
      omega
    rw [entOf_eq hk]
    exact (p11 i hi).2.2.1 k hk h1 h2

/-- In strict C++ the constructor has undefined behaviour for every non-empty tile with at most `np (np - 2)` rows, where
`np` is four times the number of threads. -/
theorem DCSR.build_none (g : FmtFresh E) {threads : Nat} (ht : 0 < threads)
    {sort : List (Edge E) → List (Edge E)} (hsort : SortsBy compareSrcDst sort)
    {edges : List (Edge E)} {m n rs cs : Nat} (hin : ∀ e ∈ edges, InTile m n rs cs e)
    (hlen : 0 < edges.length) (hm : m ≤ threads * 4 * (threads * 4 - 2)) :
    DCSR.build none g threads sort edges m n rs cs = none := by
  unfold DCSR.build
  simp only [Option.bind_eq_bind]
  rw [if_pos hlen]
  have hperm := (hsort edges).1
  have hlen' : 0 < (sort edges).length := by rw [hperm.length_eq]; exact hlen
  have hin' : ∀ e ∈ sort edges, InTile m n rs cs e := fun e he => hin e (hperm.mem_iff.mp he)
  have hss := @sorted_src E sort hsort edges
  obtain ⟨es, hes⟩ : ∃ es, es = sort edges := ⟨_, rfl⟩
  rw [← hes] at hlen' hin' ⊢
  have hss : ∀ i j (hij : i ≤ j) (hj : j < es.length), es[i].src ≤ es[j].src := by
    intro i j hij hj
    subst hes
    exact hss hij hj
  obtain ⟨tmp, last, ri, c, p1, p2, p3, p4, p5, p6, p7, p8, p9, p10, r, p11⟩ := dcsr_prepare g hlen' hin' hss
  rw [p1, Option.bind_some, p2, Option.bind_some, p3, Option.bind_some,
    dcsrParts_none (g.nats 2) (by omega) p4 (by omega)]
  rfl

/-- `get_edges` returns the entries in stored order; its assertion holds. -/
theorem DCSR.Ok.getEdges {t : DCSR E} {r c : Nat → Nat} {ent : Nat → Nat × Nat × E} (h : t.Ok r c ent)
    (g : Nat → Edge E) (rs cs : Nat) :
    t.getEdges g rs cs = some ((List.range t.nnz).map (fun k => unlocal rs cs (ent k))) := by
  unfold DCSR.getEdges
  simp only [Option.bind_eq_bind]
  by_cases hn : t.nnz > 0
  · rw [if_pos hn]
    obtain ⟨st, h1, h2, h3, h4⟩ := forLoop_inv (σ := Arr (Edge E) × Nat) (lo := 0) (hi := t.numRows) (s := (⟨t.nnz, g⟩, 0))
      (body := fun i st => (t.ia.read i).bind fun lo => (t.ia.read (i + 1)).bind fun hi =>
        forLoop lo hi st fun nz st => (t.rowIds.read i).bind fun r => (t.ja.read nz).bind fun j =>
          (t.a.read nz).bind fun v => (st.1.write nz { src := r + rs + 1, dst := j + cs + 1, val := v }).bind fun out =>
            some (out, st.2 + 1))
      (fun i st => st.1.size = t.nnz ∧ st.2 = c i ∧ ∀ k, k < c i → st.1.get k = unlocal rs cs (ent k)) (by omega)
      ⟨rfl, h.c0.symm, fun k hk => by rw [h.c0] at hk; omega⟩ (by
        intro i st _ hi hinv
        rw [Arr.read_some (by rw [h.isz]; omega), Option.bind_some, Arr.read_some (by rw [h.isz]; omega),
          Option.bind_some, h.ptr i (by omega), h.ptr (i + 1) (by omega)]
        have hmono := h.mono i hi
        have hle := h.le (i := i + 1) (by omega)
        exact forLoop_inv (σ := Arr (Edge E) × Nat) (lo := c i) (hi := c (i + 1)) (s := st)
          (fun q st => st.1.size = t.nnz ∧ st.2 = q ∧ ∀ k, k < q → st.1.get k = unlocal rs cs (ent k)) hmono
          hinv (by
            intro k st q1 q2 qi
            have hk : k < t.nnz := by omega
            rw [Arr.read_some (by rw [h.rsz]; exact hi), Option.bind_some,
              Arr.read_some (by rw [h.jsz]; exact hk), Option.bind_some, Arr.read_some (by rw [h.asz]; exact hk),
              Option.bind_some, Arr.write_some (by rw [qi.1]; exact hk), Option.bind_some]
            refine ⟨_, rfl, qi.1, by show st.2 + 1 = k + 1; rw [qi.2.1], ?_⟩
            intro k' hk'
            by_cases he : k' = k
            · subst he
              refine (Arr.upd_get_self _ _ _).trans ?_
              rw [h.col k' hk, h.val k' hk, h.rid i hi]
              unfold unlocal
              rw [h.row i hi k' (by omega) (by omega)]
              congr 1 <;> omega
            · exact (Arr.upd_get_ne _ _ he).trans (qi.2.2 k' (by omega))))
    rw [h1, Option.bind_some, if_pos (by rw [h3, h.cm])]
    rw [h.cm] at h4
    unfold Arr.toList
    rw [h2]
    congr 1
    apply List.map_congr_left
    intro k hk
    rw [List.mem_range] at hk
    exact h4 k hk
  · rw [if_neg hn]
    have : t.nnz = 0 := by omega
    unfold Arr.toList
    rw [this]; rfl

end GraphMat

import Verif.Model.IdMap

namespace GraphMat

/-- Overflow-free description of `vertexToNative` on natural numbers (lemma support only). -/
def v2n (np n v : Nat) : Nat :=
  if (v - 1) ≥ n / np * np then v else (v - 1) / np + (v - 1) % np * (n / np) + 1

/-- Overflow-free description of `nativeToVertex` on natural numbers (lemma support only). -/
def n2v (np n v : Nat) : Nat :=
  if (v - 1) ≥ n / np * np then v
  else (v - 1) / (n / np) + (v - 1) % (n / np) * np + 1

theorem v2n_range {np n v : Nat} (hnp : 0 < np) (h1 : 1 ≤ v) (hn : v ≤ n) :
    1 ≤ v2n np n v ∧ v2n np n v ≤ n := by
  unfold v2n
  split
  · exact ⟨h1, hn⟩
  · rename_i h
    have hlt : v - 1 < n / np * np := by omega
    refine ⟨Nat.le_add_left _ _, ?_⟩
    have hH : 0 < n / np := by
      rcases Nat.eq_zero_or_pos (n / np) with h0 | h0
      · rw [h0] at hlt; simp at hlt
      · exact h0
    have hr : (v - 1) / np < n / np := Nat.div_lt_of_lt_mul (by rw [Nat.mul_comm]; exact hlt)
    have hc : (v - 1) % np < np := Nat.mod_lt _ hnp
    have : (v - 1) % np * (n / np) + (n / np) ≤ np * (n / np) := by
      have := Nat.mul_le_mul_right (n / np) (Nat.succ_le_of_lt hc)
      rw [Nat.succ_mul] at this; exact this
    have h3 : np * (n / np) ≤ n := Nat.mul_div_le n np
    omega

theorem n2v_range {np n v : Nat} (h1 : 1 ≤ v) (hn : v ≤ n) :
    1 ≤ n2v np n v ∧ n2v np n v ≤ n := by
  unfold n2v
  split
  · exact ⟨h1, hn⟩
  · rename_i h
    have hlt : v - 1 < n / np * np := by omega
    refine ⟨Nat.le_add_left _ _, ?_⟩
    have hH : 0 < n / np := by
      rcases Nat.eq_zero_or_pos (n / np) with h0 | h0
      · rw [h0] at hlt; simp at hlt
      · exact h0
    have hr : (v - 1) / (n / np) < np := Nat.div_lt_of_lt_mul hlt
    have hc : (v - 1) % (n / np) < n / np := Nat.mod_lt _ hH
    have : (v - 1) % (n / np) * np + np ≤ (n / np) * np := by
      have := Nat.mul_le_mul_right np (Nat.succ_le_of_lt hc)
      rw [Nat.succ_mul] at this; exact this
    have h3 : np * (n / np) ≤ n := Nat.mul_div_le n np
    rw [Nat.mul_comm] at h3
    omega

theorem n2v_v2n {np n v : Nat} (hnp : 0 < np) (h1 : 1 ≤ v) : n2v np n (v2n np n v) = v := by
  unfold v2n
  split
  · rename_i h; unfold n2v; rw [if_pos h]
  · rename_i h
    have hlt : v - 1 < n / np * np := by omega
    have hH : 0 < n / np := by
      rcases Nat.eq_zero_or_pos (n / np) with h0 | h0
      · rw [h0] at hlt; simp at hlt
      · exact h0
    have hr : (v - 1) / np < n / np := Nat.div_lt_of_lt_mul (by rw [Nat.mul_comm]; exact hlt)
    have hc : (v - 1) % np < np := Nat.mod_lt _ hnp
    have h2 : (v - 1) % np * (n / np) + (n / np) ≤ n / np * np := by
      have := Nat.mul_le_mul_right (n / np) (Nat.succ_le_of_lt hc)
      rw [Nat.succ_mul, Nat.mul_comm np] at this; exact this
    unfold n2v
    rw [Nat.add_sub_cancel, if_neg (by omega)]
    have e1 : ((v - 1) / np + (v - 1) % np * (n / np)) / (n / np) = (v - 1) % np := by
      rw [Nat.add_mul_div_right _ _ hH, Nat.div_eq_of_lt hr, Nat.zero_add]
    have e2 : ((v - 1) / np + (v - 1) % np * (n / np)) % (n / np) = (v - 1) / np := by
      rw [Nat.add_mul_mod_self_right, Nat.mod_eq_of_lt hr]
    rw [e1, e2]
    have := Nat.mod_add_div (v - 1) np
    rw [Nat.mul_comm np] at this
    omega

theorem v2n_n2v {np n v : Nat} (hnp : 0 < np) (h1 : 1 ≤ v) : v2n np n (n2v np n v) = v := by
  unfold n2v
  split
  · rename_i h; unfold v2n; rw [if_pos h]
  · rename_i h
    have hlt : v - 1 < n / np * np := by omega
    have hH : 0 < n / np := by
      rcases Nat.eq_zero_or_pos (n / np) with h0 | h0
      · rw [h0] at hlt; simp at hlt
      · exact h0
    have hr : (v - 1) / (n / np) < np := Nat.div_lt_of_lt_mul hlt
    have hc : (v - 1) % (n / np) < n / np := Nat.mod_lt _ hH
    have h2 : (v - 1) % (n / np) * np + np ≤ n / np * np := by
      have := Nat.mul_le_mul_right np (Nat.succ_le_of_lt hc)
      rw [Nat.succ_mul] at this; exact this
    unfold v2n
    rw [Nat.add_sub_cancel, if_neg (by omega)]
    have e1 : ((v - 1) / (n / np) + (v - 1) % (n / np) * np) / np = (v - 1) % (n / np) := by
      rw [Nat.add_mul_div_right _ _ hnp, Nat.div_eq_of_lt hr, Nat.zero_add]
    have e2 : ((v - 1) / (n / np) + (v - 1) % (n / np) * np) % np = (v - 1) / (n / np) := by
      rw [Nat.add_mul_mod_self_right, Nat.mod_eq_of_lt hr]
    rw [e1, e2]
    have := Nat.mod_add_div (v - 1) (n / np)
    rw [Nat.mul_comm (n / np)] at this
    omega

theorem ck_some {x : Int} (h1 : INT_MIN ≤ x) (h2 : x ≤ INT_MAX) : ck x = some x := by
  unfold ck; rw [if_pos ⟨h1, h2⟩]

/-- The largest `int` as a natural number (lemma support only). -/
def IMAX : Nat := 2147483647

theorem ck_nat {x : Nat} (h2 : x ≤ IMAX) : ck (x : Int) = some (x : Int) :=
  ck_some (by unfold INT_MIN; omega) (by unfold INT_MAX; unfold IMAX at h2; omega)

theorem cadd_nat {a b : Nat} (h : a + b ≤ IMAX) :
    cadd (a : Int) (b : Int) = some ((a + b : Nat) : Int) := by
  unfold cadd; rw [← Int.natCast_add]; exact ck_nat h

theorem cmul_nat {a b : Nat} (h : a * b ≤ IMAX) :
    cmul (a : Int) (b : Int) = some ((a * b : Nat) : Int) := by
  unfold cmul; rw [← Int.natCast_mul]; exact ck_nat h

theorem cdiv_nat {a b : Nat} (hb : 0 < b) (h : a ≤ IMAX) :
    cdiv (a : Int) (b : Int) = some ((a / b : Nat) : Int) := by
  unfold cdiv
  rw [if_neg (by omega), ← Int.ofNat_tdiv]
  exact ck_nat (Nat.le_trans (Nat.div_le_self a b) h)

theorem cmod_nat {a b : Nat} (hb : 0 < b) (h : a ≤ IMAX) :
    cmod (a : Int) (b : Int) = some ((a % b : Nat) : Int) := by
  unfold cmod
  rw [if_neg (by omega), ← Int.ofNat_tdiv, ck_nat (Nat.le_trans (Nat.div_le_self a b) h)]
  rw [if_neg (by simp), ← Int.ofNat_tmod]
  exact ck_nat (Nat.le_trans (Nat.mod_le a b) h)

theorem csub_one {u : Nat} (h : u ≤ IMAX) :
    csub ((u + 1 : Nat) : Int) 1 = some (u : Int) := by
  unfold csub
  have : ((u + 1 : Nat) : Int) - 1 = (u : Int) := by omega
  rw [this]; exact ck_nat h

theorem cadd_one {u : Nat} (h : u + 1 ≤ IMAX) :
    cadd (u : Int) 1 = some ((u + 1 : Nat) : Int) := by
  unfold cadd
  have : (u : Int) + 1 = ((u + 1 : Nat) : Int) := by omega
  rw [this]; exact ck_nat h

theorem cmul_16 {t : Nat} (h : t * 16 ≤ IMAX) :
    cmul (t : Int) 16 = some ((t * 16 : Nat) : Int) := by
  unfold cmul
  have : (t : Int) * 16 = ((t * 16 : Nat) : Int) := by omega
  rw [this]; exact ck_nat h

theorem tail_eq {a b c : Nat} (h : a + b * c + 1 ≤ IMAX) :
    ((cmul (b : Int) (c : Int)).bind fun ch => (cadd (a : Int) ch).bind fun s => cadd s 1)
      = some ((a + b * c + 1 : Nat) : Int) := by
  rw [cmul_nat (by omega), Option.bind_some, cadd_nat (by omega), Option.bind_some,
    cadd_one h]

theorem vertexToNative_eq {t s n v : Nat} (ht : 0 < t) (hs : 0 < s)
    (hnp : t * 16 * s ≤ IMAX) (hn : n ≤ IMAX) (h1 : 1 ≤ v) (hv : v ≤ n) :
    vertexToNative t s n v = some ((v2n (t * 16 * s) n v : Nat) : Int) := by
  obtain ⟨u, rfl⟩ : ∃ u, v = u + 1 := ⟨v - 1, by omega⟩
  have hNP : 0 < t * 16 * s := Nat.mul_pos (Nat.mul_pos ht (by omega)) hs
  have ht16 : t * 16 ≤ IMAX :=
    Nat.le_trans (Nat.le_mul_of_pos_right _ hs) hnp
  have hrange := v2n_range (n := n) hNP h1 hv
  unfold vertexToNative
  rw [csub_one (by omega), cmul_16 ht16]
  simp only [Option.bind_eq_bind, Option.bind_some]
  rw [cmul_nat hnp]
  generalize t * 16 * s = np at *
  have hvm : n / np * np ≤ n := Nat.div_mul_le_self _ _
  simp only [Option.bind_some]
  rw [cdiv_nat hNP hn]
  simp only [Option.bind_some]
  rw [cmul_nat (Nat.le_trans hvm hn)]
  simp only [Option.bind_some]
  unfold v2n at hrange ⊢
  rw [Nat.add_sub_cancel] at hrange ⊢
  by_cases hc : u ≥ n / np * np
  · rw [if_pos (Int.ofNat_le.mpr hc), if_pos hc]
    exact cadd_one (by omega)
  · rw [if_neg (fun h => hc (Int.ofNat_le.mp h)), if_neg hc]
    rw [if_neg hc] at hrange
    rw [cmod_nat hNP (by omega)]
    simp only [Option.bind_some]
    rw [cdiv_nat hNP (by omega)]
    simp only [Option.bind_some]
    exact tail_eq (Nat.le_trans hrange.2 hn)

theorem nativeToVertex_eq {t s n v : Nat} (ht : 0 < t) (hs : 0 < s)
    (hnp : t * 16 * s ≤ IMAX) (hn : n ≤ IMAX) (h1 : 1 ≤ v) (hv : v ≤ n) :
    nativeToVertex t s n v = some ((n2v (t * 16 * s) n v : Nat) : Int) := by
  obtain ⟨u, rfl⟩ : ∃ u, v = u + 1 := ⟨v - 1, by omega⟩
  have hNP : 0 < t * 16 * s := Nat.mul_pos (Nat.mul_pos ht (by omega)) hs
  have ht16 : t * 16 ≤ IMAX :=
    Nat.le_trans (Nat.le_mul_of_pos_right _ hs) hnp
  have hrange := n2v_range (np := t * 16 * s) (n := n) h1 hv
  unfold nativeToVertex
  rw [csub_one (by omega), cmul_16 ht16]
  simp only [Option.bind_eq_bind, Option.bind_some]
  rw [cmul_nat hnp]
  generalize t * 16 * s = np at *
  have hvm : n / np * np ≤ n := Nat.div_mul_le_self _ _
  simp only [Option.bind_some]
  rw [cdiv_nat hNP hn]
  simp only [Option.bind_some]
  rw [cmul_nat (Nat.le_trans hvm hn)]
  simp only [Option.bind_some]
  unfold n2v at hrange ⊢
  rw [Nat.add_sub_cancel] at hrange ⊢
  by_cases hc : u ≥ n / np * np
  · rw [if_pos (Int.ofNat_le.mpr hc), if_pos hc]
    exact cadd_one (by omega)
  · rw [if_neg (fun h => hc (Int.ofNat_le.mp h)), if_neg hc]
    rw [if_neg hc] at hrange
    have hH : 0 < n / np := by
      rcases Nat.eq_zero_or_pos (n / np) with h0 | h0
      · rw [h0] at hc; simp at hc
      · exact h0
    rw [cdiv_nat hH (by omega)]
    simp only [Option.bind_some]
    rw [cmod_nat hH (by omega)]
    simp only [Option.bind_some]
    exact tail_eq (Nat.le_trans hrange.2 hn)

theorem ck_elim {x y : Int} (h : ck x = some y) : y = x := by
  unfold ck at h
  split at h
  · injection h with h; exact h.symm
  · cases h

theorem cdiv_elim {a b y : Int} (h : cdiv a b = some y) : y = a.tdiv b := by
  unfold cdiv at h
  split at h
  · cases h
  · exact ck_elim h

theorem cmod_elim {a b y : Int} (h : cmod a b = some y) : y = a.tmod b := by
  unfold cmod at h
  split at h
  · cases h
  · split at h
    · cases h
    · exact ck_elim h

/-- What `vertexToNative` returns when no operation is undefined. -/
theorem vertexToNative_elim {t s n v w : Int} (h : vertexToNative t s n v = some w) :
    w = if v - 1 ≥ n.tdiv (t * 16 * s) * (t * 16 * s) then v
      else (v - 1).tdiv (t * 16 * s) + (v - 1).tmod (t * 16 * s) * n.tdiv (t * 16 * s) + 1 := by
  unfold vertexToNative at h
  simp only [Option.bind_eq_bind, Option.bind_eq_some_iff] at h
  obtain ⟨a, ha, b, hb, np, hnp, hh, hhh, vm, hvm, h⟩ := h
  have ha := ck_elim ha
  have hb := ck_elim hb
  have hnp := ck_elim hnp
  have hhh := cdiv_elim hhh
  have hvm := ck_elim hvm
  subst ha hb hnp hhh hvm
  split at h
  · rename_i hc
    rw [if_pos hc]
    have := ck_elim h
    omega
  · rename_i hc
    rw [if_neg hc]
    simp only [Option.bind_eq_some_iff] at h
    obtain ⟨c, hc', r, hr, ch, hch, s', hs', h⟩ := h
    have hc' := cmod_elim hc'
    have hr := cdiv_elim hr
    have hch := ck_elim hch
    have hs' := ck_elim hs'
    have h := ck_elim h
    subst hc' hr hch hs'
    exact h

theorem vertexToNative_above {t s n : Nat} {v : Int} (ht : 0 < t) (hs : 0 < s)
    (_hnp : t * 16 * s ≤ IMAX) (_hn : n ≤ IMAX) (hv : (n : Int) < v) :
    vertexToNative t s n v = none ∨ ∃ w, vertexToNative t s n v = some w ∧ (w ≤ 0 ∨ (n : Int) < w) := by
  cases h : vertexToNative t s n v with
  | none => exact Or.inl rfl
  | some w =>
    refine Or.inr ⟨w, rfl, Or.inr ?_⟩
    have e := vertexToNative_elim h
    have hNP : 0 < t * 16 * s := Nat.mul_pos (Nat.mul_pos ht (by omega)) hs
    have e1 : ((t : Int) * 16 * s) = ((t * 16 * s : Nat) : Int) := by simp
    rw [e1] at e
    generalize t * 16 * s = np at *
    have hle : (n : Int).tdiv (np : Int) * (np : Int) ≤ n := by
      rw [← Int.ofNat_tdiv, ← Int.natCast_mul]
      exact Int.ofNat_le.mpr (Nat.div_mul_le_self _ _)
    rw [if_pos (by omega)] at e
    omega

theorem vertexToNative_nonpos {t s n : Nat} {v : Int} (ht : 0 < t) (hs : 0 < s)
    (_hnp : t * 16 * s ≤ IMAX) (_hn : n ≤ IMAX) (hbig : t * 16 * s ≤ n) (hv : v ≤ 0) :
    vertexToNative t s n v = none ∨ ∃ w, vertexToNative t s n v = some w ∧ w ≤ 0 := by
  cases h : vertexToNative t s n v with
  | none => exact Or.inl rfl
  | some w =>
    refine Or.inr ⟨w, rfl, ?_⟩
    have e := vertexToNative_elim h
    have hNP : 0 < t * 16 * s := Nat.mul_pos (Nat.mul_pos ht (by omega)) hs
    have e1 : ((t : Int) * 16 * s) = ((t * 16 * s : Nat) : Int) := by simp
    rw [e1] at e
    generalize t * 16 * s = np at *
    rw [← Int.ofNat_tdiv] at e
    have hH : 0 < n / np := Nat.div_pos hbig hNP
    generalize n / np = H at *
    rw [if_neg (by have : (0:Int) ≤ (H : Int) * np := by rw [← Int.natCast_mul]; omega
                   omega)] at e
    obtain ⟨k, rfl⟩ : ∃ k : Nat, v = -(k : Int) := ⟨v.natAbs, by omega⟩
    have e2 : -(k : Int) - 1 = -((k + 1 : Nat) : Int) := by omega
    rw [e2, Int.neg_tdiv, Int.neg_tmod, ← Int.ofNat_tdiv, ← Int.ofNat_tmod, Int.neg_mul,
      ← Int.natCast_mul] at e
    have hdm := Nat.div_add_mod (k + 1) np
    have hge : (k + 1) % np * H ≥ (k + 1) % np := Nat.le_mul_of_pos_right _ hH
    generalize (k + 1) / np = q at *
    generalize (k + 1) % np = r at *
    generalize r * H = m at *
    rcases Nat.eq_zero_or_pos q with hz | hz
    · subst hz; simp only [Nat.mul_zero] at hdm; omega
    · omega

theorem vertexToNative_zero {t s n : Nat} (ht : 0 < t) (hs : 0 < s)
    (hnp : t * 16 * s ≤ IMAX) (hn : n ≤ IMAX) (hsmall : n < t * 16 * s) :
    vertexToNative t s n 0 = some 1 := by
  have hNP : 16 ≤ t * 16 * s := by
    have : 16 ≤ t * 16 := by omega
    exact Nat.le_trans this (Nat.le_mul_of_pos_right _ hs)
  have ht16 : t * 16 ≤ IMAX :=
    Nat.le_trans (Nat.le_mul_of_pos_right _ hs) hnp
  unfold vertexToNative
  rw [cmul_16 ht16]
  simp only [Option.bind_eq_bind, Option.bind_some]
  rw [cmul_nat hnp]
  generalize t * 16 * s = np at *
  simp only [Option.bind_some]
  rw [cdiv_nat (by omega) hn, Nat.div_eq_of_lt hsmall]
  have d1 : (-1 : Int).tdiv (np : Int) = 0 := by
    have e : (-1 : Int) = -((1 : Nat) : Int) := rfl
    rw [e, Int.neg_tdiv, ← Int.ofNat_tdiv, Nat.div_eq_of_lt (by omega)]; rfl
  have d2 : (-1 : Int).tmod (np : Int) = -1 := by
    have e : (-1 : Int) = -((1 : Nat) : Int) := rfl
    rw [e, Int.neg_tmod, ← Int.ofNat_tmod, Nat.mod_eq_of_lt (by omega)]
  have c1 : csub 0 1 = some (-1) := by decide
  have c2 : cmul ((0 : Nat) : Int) (np : Int) = some 0 := by
    unfold cmul
    rw [show ((0 : Nat) : Int) * (np : Int) = 0 from Int.zero_mul _]; decide
  have c3 : cmod (-1) (np : Int) = some (-1) := by
    unfold cmod
    rw [if_neg (by omega), d1, d2]; decide
  have c4 : cdiv (-1) (np : Int) = some 0 := by
    unfold cdiv
    rw [if_neg (by omega), d1]; decide
  simp only [Option.bind_some, c1, c2, c3, c4]
  decide

end GraphMat

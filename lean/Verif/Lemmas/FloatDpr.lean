import Verif.Model.FloatDpr
import Verif.Lemmas.FloatPr
import Verif.Lemmas.FloatRound
import Verif.Lemmas.IncPageRank

namespace GraphMat

variable {E : Type}

/-- Half a unit in the last place of a `double`. -/
local notation "uD" => (1 / 9007199254740992 : Rat)

/-- An upper bound of the threshold. -/
local notation "tE" => (1 / 99999999 : Rat)

/-! ### Relative errors -/

/-- `y` is `x` up to `k` roundings of a `double`. -/
def NearD (k : Nat) (x y : Rat) : Prop := x * (1 - uD) ^ k ≤ y ∧ y ≤ x * (1 + uD) ^ k

theorem NearD.refl (x : Rat) : NearD 0 x x := by simp [NearD]

theorem lowD_pos (k : Nat) : (0 : Rat) < (1 - uD) ^ k := by
  have : (0 : Rat) < 1 - uD := by norm_num
  positivity

theorem highD_pos (k : Nat) : (0 : Rat) < (1 + uD) ^ k := by positivity

theorem NearD.nonneg {k : Nat} {x y : Rat} (h : NearD k x y) (hx : 0 ≤ x) : 0 ≤ y :=
  le_trans (mul_nonneg hx (le_of_lt (lowD_pos k))) h.1

theorem NearD.trans {j k : Nat} {x y z : Rat} (h1 : NearD j x y) (h2 : NearD k y z) : NearD (j + k) x z := by
  constructor
  · refine le_trans ?_ h2.1
    rw [pow_add, ← mul_assoc]
    exact mul_le_mul_of_nonneg_right h1.1 (le_of_lt (lowD_pos k))
  · refine le_trans h2.2 ?_
    rw [pow_add, ← mul_assoc]
    exact mul_le_mul_of_nonneg_right h1.2 (le_of_lt (highD_pos k))

theorem lowD_anti {j k : Nat} (h : j ≤ k) : ((1 : Rat) - uD) ^ k ≤ (1 - uD) ^ j :=
  pow_le_pow_of_le_one (by norm_num) (by norm_num) h

theorem highD_mono {j k : Nat} (h : j ≤ k) : ((1 : Rat) + uD) ^ j ≤ (1 + uD) ^ k :=
  pow_le_pow_right₀ (by norm_num) h

theorem NearD.mono {j k : Nat} {x y : Rat} (h : NearD j x y) (hx : 0 ≤ x) (hjk : j ≤ k) : NearD k x y :=
  ⟨le_trans (mul_le_mul_of_nonneg_left (lowD_anti hjk) hx) h.1,
   le_trans h.2 (mul_le_mul_of_nonneg_left (highD_mono hjk) hx)⟩

theorem NearD.add {k : Nat} {x y x' y' : Rat} (h : NearD k x y) (h' : NearD k x' y') : NearD k (x + x') (y + y') := by
  obtain ⟨a, b⟩ := h
  obtain ⟨a', b'⟩ := h'
  constructor
  · rw [add_mul]; linarith
  · rw [add_mul]; linarith

theorem NearD.mul {k : Nat} {x y c : Rat} (hc : 0 ≤ c) (h : NearD k x y) : NearD k (c * x) (c * y) := by
  constructor
  · rw [mul_assoc]; exact mul_le_mul_of_nonneg_left h.1 hc
  · rw [mul_assoc]; exact mul_le_mul_of_nonneg_left h.2 hc

/-- The relative error of `k` roundings. -/
def relErrD (k : Nat) : Rat := k / 4503599627370496

theorem highD_le {k : Nat} (h : 2 * k ≤ 9007199254740992) : ((1 : Rat) + uD) ^ k ≤ 1 + relErrD k := by
  have h1 := highK_mul k uD (by norm_num)
  have hk : (2 : Rat) * k ≤ 9007199254740992 := by exact_mod_cast h
  have hk0 : (0 : Rat) ≤ k := by positivity
  have h2 : (1 : Rat) ≤ (1 + relErrD k) * (1 - k * uD) := by
    unfold relErrD
    have h3 : (0 : Rat) ≤ k / 9007199254740992 := by positivity
    have h4 : (k : Rat) / 9007199254740992 ≤ 1 / 2 := by rw [div_le_div_iff₀ (by norm_num) (by norm_num)]; linarith
    have e : (k : Rat) * uD = k / 9007199254740992 := by ring
    have e2 : (k : Rat) / 4503599627370496 = 2 * (k / 9007199254740992) := by ring
    rw [e, e2]
    generalize (k : Rat) / 9007199254740992 = y at *
    nlinarith
  have hp : (0 : Rat) < 1 - k * uD := by linarith
  exact le_of_mul_le_mul_right (le_trans h1 h2) hp

theorem lowD_ge (k : Nat) : 1 - relErrD k ≤ (1 - uD) ^ k := by
  unfold relErrD
  induction k with
  | zero => simp
  | succ k ih =>
    rw [pow_succ]
    have hk0 : (0 : Rat) ≤ k := by positivity
    have : (1 - (k : Rat) / 4503599627370496) * (1 - uD) ≤ (1 - uD) ^ k * (1 - uD) :=
      mul_le_mul_of_nonneg_right ih (by norm_num)
    push_cast
    nlinarith

theorem NearD.rel {k : Nat} (h : 2 * k ≤ 9007199254740992) {x y : Rat} (hx : 0 ≤ x) (hn : NearD k x y) :
    |y - x| ≤ relErrD k * x := by
  have h1 := mul_le_mul_of_nonneg_left (highD_le h) hx
  have h2 := mul_le_mul_of_nonneg_left (lowD_ge k) hx
  obtain ⟨a, b⟩ := hn
  rw [abs_le]
  constructor <;> nlinarith

theorem roundD {x : Rat} (h : tiny ≤ x) (hb : x ≤ pow2 100) : ∃ y, b64.round x = some y ∧ NearD 1 x y := by
  have hx : 0 ≤ x := le_trans (le_of_lt tiny_pos) h
  have h1 := b64.near_rel (le_trans (pow2_le (by decide)) h)
  have e : pow2 (-(b64.prec : Int)) = uD := by decide +kernel
  rw [e, abs_le] at h1
  have h2 : NearD 1 x (b64.near x) := by constructor <;> rw [pow_one] <;> linarith
  refine ⟨_, ?_, h2⟩
  rw [b64.round_eq hx, if_pos]
  have h3 : pow2 101 < pow2 (b64.emax + 1) := pow2_lt (by decide)
  have h4 : pow2 100 * (1 + uD) ^ 1 ≤ pow2 101 := by decide +kernel
  refine lt_of_le_of_lt (le_trans h2.2 (le_trans ?_ h4)) h3
  exact mul_le_mul_of_nonneg_right hb (by norm_num)

theorem roundD_int {d : Nat} (hd : d ≤ IMAX) : b64.round ((d : Int) : Rat) = some (d : Rat) := by
  have := b64.round_fix (by decide) (x := ((d : Int) : Rat)) ⟨(d : Int), 52, by decide, by decide, ?_, ?_⟩
  · rw [this]; simp
  · unfold IMAX at hd
    rw [abs_of_nonneg (by omega)]
    show (d : Int) < 2 ^ 53
    omega
  · show _ = _ * (2 : Rat) ^ ((52 : Int) - (((53 : Nat) : Int) - 1))
    norm_num

theorem alphaD_val : alphaD = some (5404319552844595 / 18014398509481984) := by decide +kernel

/-- The threshold `1e-8` as a `double`. -/
def tD : Rat := 3022314549036573 / 302231454903657293676544

theorem tD_val : b64.round (1 / 100000000) = some tD := by decide +kernel

theorem tD_bounds : 1 / 100000000 < tD ∧ tD * (1 + 2 * uD) ≤ tE := by unfold tD; norm_num

theorem dpfBig_iff {x : Rat} (hx : 0 ≤ x) : dpfBig (some x) = true ↔ tD < x := by
  unfold dpfBig
  rw [tD_val]
  simp only [decide_eq_true_iff]
  rw [mag_eq, abs_of_nonneg hx]

/-! ### One message, the sum, one update -/

/-- The smallest message. -/
local notation "mLow" => (1 / 1000000000000000000 : Rat)

theorem dpfMessage_near {v : DpfV} {r : Rat} {d : Nat} (hr : v.delta = some r) (hd : v.deg = some (d : Int))
    (h1 : 1 / 100000000 ≤ r) (h2 : r ≤ pow2 50) (hd1 : 1 ≤ d) (hd2 : d ≤ IMAX) :
    ∃ m, dpfMessage v = some m ∧ NearD 1 (r / d) m ∧ mLow ≤ m := by
  have hd1' : (1 : Rat) ≤ d := by exact_mod_cast hd1
  have hd2' : (d : Rat) ≤ 2147483647 := by unfold IMAX at hd2; exact_mod_cast hd2
  have ht : tiny ≤ mLow := by decide +kernel
  have hp : pow2 50 ≤ pow2 100 := pow2_le (by decide)
  have hlow : 2 * mLow ≤ r / d := by
    rw [le_div_iff₀ (by linarith)]
    linarith
  have hhigh : r / d ≤ pow2 50 := by
    rw [div_le_iff₀ (by linarith)]
    nlinarith
  obtain ⟨m, f1, f2⟩ := roundD (x := r / d) (by linarith) (by linarith)
  refine ⟨m, ?_, f2, ?_⟩
  · unfold dpfMessage
    rw [hd, hr]
    simp only [Option.getD_some]
    rw [if_neg (by omega), roundD_int hd2]
    exact f1
  · have := f2.1
    rw [pow_one] at this
    linarith

/-- Adding numbers in any order. -/
theorem addD_tree (t : RTree (Option Rat)) : ∀ (l : List Rat), t.leaves = l.map some → (∀ x ∈ l, mLow ≤ x) →
    l.sum * (1 + uD) ^ l.length ≤ pow2 90 → ∃ y, t.eval addD = some y ∧ NearD (l.length - 1) l.sum y ∧ mLow ≤ y := by
  induction t with
  | leaf u =>
    intro l h hl _
    simp only [RTree.leaves] at h
    match l, h with
    | [x], h =>
      injection h with h
      exact ⟨x, by rw [RTree.eval, h], by simpa using NearD.refl x, hl x (List.mem_cons_self ..)⟩
  | node a b iha ihb =>
    intro l h hl hb
    simp only [RTree.leaves] at h
    obtain ⟨l1, l2, rfl, e1, e2⟩ := List.append_eq_map_iff.mp h
    have hn1 : l1 ≠ [] := by rintro rfl; exact a.leaves_ne (by rw [← e1]; rfl)
    have hn2 : l2 ≠ [] := by rintro rfl; exact b.leaves_ne (by rw [← e2]; rfl)
    have hp1 : 0 < l1.length := List.length_pos_iff.mpr hn1
    have hp2 : 0 < l2.length := List.length_pos_iff.mpr hn2
    have hsum : ∀ l' : List Rat, (∀ x ∈ l', mLow ≤ x) → 0 ≤ l'.sum := by
      intro l' h
      exact List.sum_nonneg (fun x hx => le_trans (by norm_num) (h x hx))
    have s1 := hsum l1 (fun x hx => hl x (List.mem_append_left _ hx))
    have s2 := hsum l2 (fun x hx => hl x (List.mem_append_right _ hx))
    rw [List.sum_append, List.length_append] at hb
    have hb1 : l1.sum * (1 + uD) ^ l1.length ≤ pow2 90 := by
      refine le_trans ?_ hb
      exact mul_le_mul (by linarith) (highD_mono (by omega)) (le_of_lt (highD_pos _)) (by linarith)
    have hb2 : l2.sum * (1 + uD) ^ l2.length ≤ pow2 90 := by
      refine le_trans ?_ hb
      exact mul_le_mul (by linarith) (highD_mono (by omega)) (le_of_lt (highD_pos _)) (by linarith)
    obtain ⟨y1, f1, g1, o1⟩ := iha l1 e1.symm (fun x hx => hl x (List.mem_append_left _ hx)) hb1
    obtain ⟨y2, f2, g2, o2⟩ := ihb l2 e2.symm (fun x hx => hl x (List.mem_append_right _ hx)) hb2
    have g1' := g1.mono (k := l1.length + l2.length - 2) (by linarith) (by omega)
    have g2' := g2.mono (k := l1.length + l2.length - 2) (by linarith) (by omega)
    have g := g1'.add g2'
    have ht : tiny ≤ mLow := by decide +kernel
    have hpp : pow2 90 ≤ pow2 100 := pow2_le (by decide)
    obtain ⟨y, k1, k2⟩ := roundD (x := y1 + y2) (by linarith) (by
      refine le_trans g.2 (le_trans ?_ (le_trans hb hpp))
      exact mul_le_mul_of_nonneg_left (highD_mono (by omega)) (by linarith))
    refine ⟨y, ?_, ?_, ?_⟩
    · rw [RTree.eval, f1, f2]; exact k1
    · rw [List.sum_append, List.length_append]
      have := g.trans k2
      rw [show l1.length + l2.length - 2 + 1 = l1.length + l2.length - 1 by omega] at this
      exact this
    · have := k2.1
      rw [pow_one] at this
      linarith

/-- What `apply` does when the numbers are in range. -/
theorem dpfApply_spec {v : DpfV} {d x m : Rat} (hvd : v.delta = some d) (hvx : v.rank = some x) (hd : 0 ≤ d)
    (hx : 1 / 4 ≤ x) (hx2 : x ≤ pow2 50) (hm : mLow ≤ m) (hm2 : m ≤ pow2 60) :
    ∃ d' x', dpfApply alphaD (some m) v = ⟨some d', some x', v.deg⟩ ∧ 0 ≤ d' ∧ 1 / 4 ≤ x' ∧
      NearD 3 ((if tD < d then 0 else d) + 7 / 10 * m) d' ∧
      (v.ne (dpfApply alphaD (some m) v) = true → tD < d') ∧
      (tD < d' → NearD 1 (x + d') x' ∧ (v.ne (dpfApply alphaD (some m) v) = false → x' - x ≤ tE)) ∧
      (¬ tD < d' → x' = x) := by
  have ht : tiny ≤ mLow / 10 := by decide +kernel
  have hp : pow2 60 * 8 + 16 ≤ pow2 100 := by decide +kernel
  have hp0 := pow2_pos 60
  have hp5 : pow2 50 ≤ pow2 60 := by decide +kernel
  have htD := tD_bounds
  have htD1 : tD ≤ 1 := by unfold tD; norm_num
  -- the share
  obtain ⟨p, p1, p2⟩ := roundD (x := (3152519739159347 / 4503599627370496 : Rat) * m) (by linarith) (by linarith)
  have hc : b64.round (1 - 5404319552844595 / 18014398509481984) = some (3152519739159347 / 4503599627370496) := by
    decide +kernel
  have hshare : dpfShare alphaD (some m) = some p := by
    unfold dpfShare
    rw [alphaD_val]
    show (b64.round (1 - 5404319552844595 / 18014398509481984)).bind _ = _
    rw [hc]
    exact p1
  have hp7 : NearD 2 (7 / 10 * m) p := by
    have h0 : NearD 1 (7 / 10 * m) (3152519739159347 / 4503599627370496 * m) := by
      constructor <;> rw [pow_one] <;> nlinarith
    exact h0.trans p2
  have hplow : mLow / 10 ≤ p := by
    have := p2.1
    rw [pow_one] at this
    linarith
  have hphigh : p ≤ pow2 60 := by
    have := p2.2
    rw [pow_one] at this
    linarith [pow2_pos 60]
  -- what was held back
  set s : Rat := if tD < d then 0 else d with hs
  have hs0 : 0 ≤ s ∧ s ≤ tD := by
    rw [hs]; split
    · exact ⟨le_refl _, by linarith⟩
    · exact ⟨hd, not_lt.mp ‹_›⟩
  have hd0 : (if dpfBig v.delta then some 0 else v.delta) = some s := by
    rw [hvd, hs]
    by_cases h : tD < d
    · rw [if_pos ((dpfBig_iff hd).mpr h), if_pos h]
    · rw [if_neg (fun hh => h ((dpfBig_iff hd).mp hh)), if_neg h]
  obtain ⟨d', q1, q2⟩ := roundD (x := s + p) (by linarith) (by linarith)
  have hd1 : addD (some s) (some p) = some d' := q1
  have hd'0 : 0 ≤ d' := q2.nonneg (by linarith)
  have hnear : NearD 3 (s + 7 / 10 * m) d' :=
    (((NearD.refl s).mono hs0.1 (by omega)).add hp7).trans q2
  have hd'2 : d' ≤ 2 * pow2 60 + 3 := by
    have := q2.2
    rw [pow_one] at this
    linarith
  have happ : dpfApply alphaD (some m) v =
      if dpfBig (some d') then { v with delta := some d', rank := addD v.rank (some d') } else { v with delta := some d' } := by
    unfold dpfApply
    rw [hd0, hshare]
    simp only [hd1]
  by_cases hb : tD < d'
  · rw [if_pos ((dpfBig_iff hd'0).mpr hb)] at happ
    obtain ⟨x', r1, r2⟩ := roundD (x := x + d') (by linarith) (by linarith)
    have hr : addD v.rank (some d') = some x' := by rw [hvx]; exact r1
    rw [hr] at happ
    refine ⟨d', x', happ, hd'0, ?_, hnear, fun _ => hb, fun _ => ⟨r2, ?_⟩, fun h => absurd hb h⟩
    · have := r2.1
      rw [pow_one] at this
      linarith
    · intro hne
      by_contra hgt
      push Not at hgt
      have hx'2 : x' ≤ pow2 100 := by
        have := r2.2
        rw [pow_one] at this
        have hp' : (pow2 60 * 3 + 4) * 2 ≤ pow2 100 := by decide +kernel
        linarith
      obtain ⟨y, y1, y2⟩ := roundD (x := x' - x) (by linarith) (by linarith)
      have hy0 : 0 ≤ y := y2.nonneg (by linarith)
      have : v.ne (dpfApply alphaD (some m) v) = dpfBig (some y) := by
        unfold DpfV.ne
        rw [happ, hvx]
        show dpfBig (b64.round (x' - x)) = _
        rw [y1]
      rw [this] at hne
      have hny : ¬ tD < y := by
        intro h
        rw [(dpfBig_iff hy0).mpr h] at hne; cases hne
      have := y2.1
      rw [pow_one] at this
      push Not at hny
      have h3 : (x' - x) * (1 - uD) ≤ tD := by linarith
      have h4 : tE * (1 - uD) < (x' - x) * (1 - uD) := mul_lt_mul_of_pos_right hgt (by norm_num)
      have h5 : tD ≤ tE * (1 - uD) := by unfold tD; norm_num
      linarith
  · rw [if_neg (fun h => hb ((dpfBig_iff hd'0).mp h))] at happ
    refine ⟨d', x, by rw [happ, hvx], hd'0, hx, hnear, ?_, fun h => absurd h hb, fun _ => rfl⟩
    intro hne
    unfold DpfV.ne at hne
    rw [happ, hvx] at hne
    have h0 : subD (some x) (some x) = some 0 := by
      show b64.round (x - x) = _
      rw [sub_self]; decide +kernel
    simp only [h0] at hne
    rw [dpfBig_iff (le_refl _)] at hne
    exact absurd hne (by linarith)

/-! ### One superstep -/

theorem dpfDegreeProg_pure : Program.Pure (dpfDegreeProg E) (fun _ _ => 1) (fun _ msg _ _ => some msg) := by
  intro s
  exact ⟨fun _ _ => rfl, fun _ _ _ _ => rfl, fun _ _ _ _ _ => rfl⟩

theorem dpfDegreeProg_step {es : List (Edge E)} {n : Nat} (hdeg : ∀ v, outDegree es v ≤ IMAX) {P P' : Nat → DpfV}
    {A' : Nat → Bool} {c : Bool} {act : Bool}
    (hs : StepRel ((dpfDegreeProg E).gp ()) (fun _ => 1) (fun msg _ _ => some msg) act n es P (fun _ => true) P' A' c) :
    ∀ v, 1 ≤ v → v ≤ n → P' v = if outDegree es v = 0 then P v else { P v with deg := some (outDegree es v : Int) } := by
  obtain ⟨res, r1, r2, _, _⟩ := hs
  intro v v1 v2
  have e1 := r1 v v1 v2
  have e2 := r2 v v1 v2
  have hlen := inMsgs_length_all (fun _ : DpfV => (1 : Int)) (fun msg (_ : E) _ => some msg) es P v
  cases hr : res v with
  | none =>
    have h0 : inMsgs (fun _ : DpfV => (1 : Int)) (fun msg (_ : E) _ => some msg) es P (fun _ => true) v = [] :=
      e1.none_iff.mp hr
    rw [h0, List.length_nil] at hlen
    rw [if_pos hlen.symm, e2, hr]
    rfl
  | some x =>
    rw [hr] at e1
    have e1' : Reduces addInt (inMsgs (fun _ : DpfV => (1 : Int)) (fun msg (_ : E) _ => some msg) es P (fun _ => true) v)
      (some x) := e1
    obtain ⟨o1, o2⟩ := e1'.ones (by
      intro u hu
      simp only [inMsgs, List.mem_filterMap] at hu
      obtain ⟨e, _, he⟩ := hu
      split at he
      · injection he with he; exact he.symm
      · cases he) (by rw [hlen]; exact hdeg v)
    rw [hlen] at o1 o2
    rw [if_neg (by omega), e2, hr, o1]
    rfl

theorem dpfProg_pure : Program.Pure (dpfProg E) (fun _ => dpfMessage) (fun _ msg _ _ => msg) := by
  intro s
  exact ⟨fun _ _ => rfl, fun _ _ _ _ => rfl, fun _ _ _ _ _ => rfl⟩

/-- The part of a vertex's delta that has been neither added to its rank nor sent. -/
def dpfSmall (d : Nat → Rat) (v : Nat) : Rat := if tD < d v then 0 else d v

/-- The part of a vertex's delta that has been added to its rank and is still to be sent. -/
def dpfPend (d : Nat → Rat) (A : Nat → Bool) (v : Nat) : Rat := if A v = true then d v else 0

/-- The sum over all vertices. -/
def vsum (n : Nat) (f : Nat → Rat) : Rat := ∑ v ∈ Finset.Icc 1 n, f v

/-- The state between supersteps: delta `d`, rank `x`. -/
structure DpfState (es : List (Edge E)) (n : Nat) (P : Nat → DpfV) (A : Nat → Bool) (d x : Nat → Rat) : Prop where
  vals : ∀ v, 1 ≤ v → v ≤ n → P v = ⟨some (d v), some (x v), some (outDegree es v : Int)⟩
  pos : ∀ v, 1 ≤ v → v ≤ n → 0 ≤ d v
  big : ∀ v, 1 ≤ v → v ≤ n → A v = true → tD < d v
  low : ∀ v, 1 ≤ v → v ≤ n → 1 / 4 ≤ x v

theorem DpfState.pend_nonneg {es : List (Edge E)} {n : Nat} {P : Nat → DpfV} {A : Nat → Bool} {d x : Nat → Rat}
    (h : DpfState es n P A d x) : ∀ u, 1 ≤ u → u ≤ n → 0 ≤ dpfPend d A u := by
  intro u u1 u2
  unfold dpfPend
  split
  · exact h.pos u u1 u2
  · exact le_refl _

theorem DpfState.small_bounds {es : List (Edge E)} {n : Nat} {P : Nat → DpfV} {A : Nat → Bool} {d x : Nat → Rat}
    (h : DpfState es n P A d x) : ∀ u, 1 ≤ u → u ≤ n → 0 ≤ dpfSmall d u ∧ dpfSmall d u ≤ tE := by
  intro u u1 u2
  have hp := h.pos u u1 u2
  have ht : tD ≤ tE := by unfold tD; norm_num
  unfold dpfSmall
  split
  · exact ⟨le_refl _, by norm_num⟩
  · rename_i hh
    exact ⟨hp, by linarith⟩

theorem single_le_vsum {n : Nat} {f : Nat → Rat} (hf : ∀ u, 1 ≤ u → u ≤ n → 0 ≤ f u) {v : Nat} (v1 : 1 ≤ v) (v2 : v ≤ n) :
    f v ≤ vsum n f := by
  apply Finset.single_le_sum (f := f) _ (Finset.mem_Icc.mpr ⟨v1, v2⟩)
  intro u hu
  obtain ⟨u1, u2⟩ := Finset.mem_Icc.mp hu
  exact hf u u1 u2

theorem vsum_nonneg {n : Nat} {f : Nat → Rat} (hf : ∀ u, 1 ≤ u → u ≤ n → 0 ≤ f u) : 0 ≤ vsum n f := by
  apply Finset.sum_nonneg
  intro u hu
  obtain ⟨u1, u2⟩ := Finset.mem_Icc.mp hu
  exact hf u u1 u2

theorem vsum_le {n : Nat} {f g : Nat → Rat} (h : ∀ u, 1 ≤ u → u ≤ n → f u ≤ g u) : vsum n f ≤ vsum n g := by
  apply Finset.sum_le_sum
  intro u hu
  obtain ⟨u1, u2⟩ := Finset.mem_Icc.mp hu
  exact h u u1 u2

theorem vsum_congr {n : Nat} {f g : Nat → Rat} (h : ∀ u, 1 ≤ u → u ≤ n → f u = g u) : vsum n f = vsum n g := by
  apply Finset.sum_congr rfl
  intro u hu
  obtain ⟨u1, u2⟩ := Finset.mem_Icc.mp hu
  exact h u u1 u2

theorem vsum_add (n : Nat) (f g : Nat → Rat) : vsum n (fun v => f v + g v) = vsum n f + vsum n g := Finset.sum_add_distrib

theorem vsum_mul (n : Nat) (c : Rat) (f : Nat → Rat) : vsum n (fun v => c * f v) = c * vsum n f := (Finset.mul_sum ..).symm

theorem vsum_const (n : Nat) (c : Rat) : vsum n (fun _ => c) = n * c := sum_three_tenths n c

/-- The messages that reach a vertex. -/
theorem dpfMsgs {es : List (Edge E)} {n : Nat} (hv : ∀ e ∈ es, e.Valid n) (hdeg : ∀ v, outDegree es v ≤ IMAX)
    {P : Nat → DpfV} {A : Nat → Bool} {d x : Nat → Rat} (hst : DpfState es n P A d x)
    (hmax : ∀ u, 1 ≤ u → u ≤ n → dpfPend d A u ≤ pow2 50) (v : Nat) :
    ∃ ms : List Rat, outMsgs dpfMessage (fun msg (_ : E) (_ : DpfV) => msg) es P A v = ms.map some ∧
      (∀ m ∈ ms, mLow ≤ m) ∧ ms.length ≤ inDegree es v ∧ NearD 1 (flowIn es (dpfPend d A) v) ms.sum := by
  unfold outMsgs flowIn inDegree
  have htD := tD_bounds
  have key : ∀ l : List (Edge E), (∀ e ∈ l, e ∈ es) →
      ∃ ms : List Rat, (l.filterMap (fun e => if e.dst = (v : Int) ∧ A e.src.toNat = true
        then some (dpfMessage (P e.src.toNat)) else none)) = ms.map some ∧ (∀ m ∈ ms, mLow ≤ m) ∧
      ms.length ≤ l.countP (fun e => decide (e.dst = (v : Int))) ∧
      NearD 1 ((l.filter (fun e => decide (e.dst = (v : Int)))).map
        (fun e => dpfPend d A e.src.toNat / (outDegree es e.src.toNat : Rat))).sum ms.sum := by
    intro l
    induction l with
    | nil => intro _; exact ⟨[], rfl, by simp, Nat.le_refl _, (NearD.refl _).mono (le_refl _) (Nat.zero_le _)⟩
    | cons a l ih =>
      intro hl
      obtain ⟨ms, i1, i2, i3, i4⟩ := ih (fun e he => hl e (List.mem_cons_of_mem _ he))
      have ha := hl a (List.mem_cons_self ..)
      obtain ⟨a1, a2, _, _⟩ := hv a ha
      rw [List.filterMap_cons, List.filter_cons, List.countP_cons]
      by_cases h1 : a.dst = (v : Int)
      · by_cases h2 : A a.src.toNat = true
        · have hp := outDegree_pos ha (by omega)
          have hval := hst.vals a.src.toNat (by omega) (by omega)
          have hbig := hst.big a.src.toNat (by omega) (by omega) h2
          have hm := hmax a.src.toNat (by omega) (by omega)
          have hpe : dpfPend d A a.src.toNat = d a.src.toNat := if_pos h2
          rw [hpe] at hm
          obtain ⟨m, m1, m2, m3⟩ := dpfMessage_near (v := P a.src.toNat) (r := d a.src.toNat)
            (d := outDegree es a.src.toNat) (by rw [hval]) (by rw [hval]) (by linarith) hm hp (hdeg _)
          refine ⟨m :: ms, ?_, ?_, ?_, ?_⟩
          · rw [if_pos ⟨h1, h2⟩]
            simp only [List.map_cons]
            rw [m1, i1]
          · intro y hy
            rcases List.mem_cons.mp hy with rfl | hy
            · exact m3
            · exact i2 y hy
          · simp only [h1, decide_true, if_true, List.length_cons]; omega
          · simp only [h1, decide_true, if_true, List.map_cons, List.sum_cons]
            rw [hpe]
            exact m2.add i4
        · have : dpfPend d A a.src.toNat = 0 := if_neg h2
          refine ⟨ms, ?_, i2, by omega, ?_⟩
          · rw [if_neg (fun h => h2 h.2)]
            exact i1
          · simp only [h1, decide_true, if_true, List.map_cons, List.sum_cons]
            rw [this, zero_div, zero_add]
            exact i4
      · refine ⟨ms, ?_, i2, by omega, ?_⟩
        · rw [if_neg (fun h => h1 h.1)]
          exact i1
        · simp only [h1, decide_false, Bool.false_eq_true, if_false]
          exact i4
  exact key es (fun _ h => h)

/-- What one superstep does to one vertex: `g` is a delta that was added to the rank but will not be sent. -/
structure DpfMove (es : List (Edge E)) (D : Nat) (A A' : Nat → Bool) (d x d' x' g : Nat → Rat) (v : Nat) : Prop where
  nonneg : 0 ≤ g v
  delta : |dpfPend d' A' v + dpfSmall d' v + g v - (dpfSmall d v + 7 / 10 * flowIn es (dpfPend d A) v)| ≤
    relErrD (D + 6) * (dpfSmall d v + 7 / 10 * flowIn es (dpfPend d A) v)
  rank : |x' v - (x v + dpfPend d' A' v + g v)| ≤ uD * (x v + dpfPend d' A' v + g v)
  dropped : g v ≤ tE + uD * (x v + dpfPend d' A' v + g v)

/-- One superstep. -/
theorem dpfProg_step {es : List (Edge E)} {n : Nat} (hn : n ≤ IMAX) (hv : ∀ e ∈ es, e.Valid n)
    (hdeg : ∀ v, outDegree es v ≤ IMAX) {D : Nat} (hD : ∀ v, inDegree es v ≤ D) (hK : D + 6 ≤ 8796093022208)
    {P P' : Nat → DpfV} {A A' : Nat → Bool} {d x : Nat → Rat} (hst : DpfState es n P A d x)
    (hpend : vsum n (dpfPend d A) ≤ 3 * n) (hrank : vsum n x ≤ 3 * n) {c : Bool}
    (hs : StepRel ((dpfProg E).gp ()) dpfMessage (fun msg _ _ => msg) false n es P A P' A' c) :
    ∃ d' x' g, DpfState es n P' A' d' x' ∧ (∀ v, 1 ≤ v → v ≤ n → DpfMove es D A A' d x d' x' g v) ∧
      (c = true ↔ ∀ v, 1 ≤ v → v ≤ n → A' v = false) := by
  obtain ⟨res, r1, r2, r3, r4⟩ := hs
  have hn' : (n : Rat) ≤ 2147483647 := by unfold IMAX at hn; exact_mod_cast hn
  have hp50 : (3 : Rat) * 2147483647 ≤ pow2 50 := by decide +kernel
  have hp60 : (2 : Rat) * pow2 50 ≤ pow2 60 := by decide +kernel
  have hp90 : (2 : Rat) * pow2 60 ≤ pow2 90 := by decide +kernel
  have hpmax : ∀ u, 1 ≤ u → u ≤ n → dpfPend d A u ≤ pow2 50 := by
    intro u u1 u2
    have := single_le_vsum hst.pend_nonneg u1 u2
    linarith
  have hxmax : ∀ u, 1 ≤ u → u ≤ n → x u ≤ pow2 50 := by
    intro u u1 u2
    have := single_le_vsum (fun u u1 u2 => le_trans (by norm_num) (hst.low u u1 u2)) u1 u2
    linarith
  have hfl : ∀ v, 0 ≤ flowIn es (dpfPend d A) v := flowIn_nonneg hv hst.pend_nonneg
  have hflmax : ∀ v, 1 ≤ v → v ≤ n → flowIn es (dpfPend d A) v ≤ pow2 50 := by
    intro v v1 v2
    have h1 := single_le_vsum (f := flowIn es (dpfPend d A)) (fun u _ _ => hfl u) v1 v2
    have h2 : vsum n (flowIn es (dpfPend d A)) ≤ vsum n (dpfPend d A) := flowIn_total hv hst.pend_nonneg
    linarith
  have hone : ∀ v, ∃ d1 x1 g1, 1 ≤ v → v ≤ n →
      P' v = ⟨some d1, some x1, some (outDegree es v : Int)⟩ ∧ 0 ≤ d1 ∧ (A' v = true → tD < d1) ∧ 1 / 4 ≤ x1 ∧ 0 ≤ g1 ∧
      |(if A' v = true then d1 else 0) + (if tD < d1 then 0 else d1) + g1 -
        (dpfSmall d v + 7 / 10 * flowIn es (dpfPend d A) v)| ≤
        relErrD (D + 6) * (dpfSmall d v + 7 / 10 * flowIn es (dpfPend d A) v) ∧
      |x1 - (x v + (if A' v = true then d1 else 0) + g1)| ≤ uD * (x v + (if A' v = true then d1 else 0) + g1) ∧
      g1 ≤ tE + uD * (x v + (if A' v = true then d1 else 0) + g1) := by
    intro v
    by_cases hr12 : 1 ≤ v ∧ v ≤ n
    swap
    · exact ⟨0, 0, 0, fun v1 v2 => absurd ⟨v1, v2⟩ hr12⟩
    obtain ⟨v1, v2⟩ := hr12
    have e1 := r1 v v1 v2
    have e2 := r2 v v1 v2
    have e3 := r3 v v1 v2
    have hsm := hst.small_bounds v v1 v2
    have hlow := hst.low v v1 v2
    have hrel0 : (0 : Rat) ≤ relErrD (D + 6) := by unfold relErrD; positivity
    obtain ⟨ms, i1, i2, i3, i4⟩ := dpfMsgs hv hdeg hst hpmax v
    cases hr : res v with
    | none =>
      have h0 : outMsgs dpfMessage (fun msg (_ : E) (_ : DpfV) => msg) es P A v = [] := e1.none_iff.mp hr
      rw [h0] at i1
      have hms : ms = [] := List.map_eq_nil_iff.mp i1.symm
      rw [hms] at i4
      have hf0 : flowIn es (dpfPend d A) v = 0 := by
        have := i4.1
        rw [pow_one, List.sum_nil] at this
        have h := hfl v
        nlinarith
      rw [hr] at e2 e3
      have e3' : A' v = false := e3
      refine ⟨d v, x v, 0, fun _ _ => ⟨?_, hst.pos v v1 v2, ?_, hlow, le_refl _, ?_, ?_, ?_⟩⟩
      · rw [e2]; exact hst.vals v v1 v2
      · rw [e3']; simp
      · rw [e3', hf0]
        simp only [Bool.false_eq_true, if_false, zero_add, add_zero, mul_zero]
        have : (if tD < d v then 0 else d v) - dpfSmall d v = 0 := by unfold dpfSmall; ring
        rw [this, abs_zero]
        exact mul_nonneg hrel0 hsm.1
      · rw [e3']
        simp only [Bool.false_eq_true, if_false, add_zero, sub_self, abs_zero]
        have : (0 : Rat) ≤ uD := by norm_num
        exact mul_nonneg this (by linarith)
      · rw [e3']
        simp only [Bool.false_eq_true, if_false, add_zero]
        linarith
    | some z =>
      rw [hr] at e1 e2 e3
      have e1' : Reduces addD (outMsgs dpfMessage (fun msg (_ : E) (_ : DpfV) => msg) es P A v) (some z) := e1
      rw [i1] at e1'
      rcases e1' with ⟨_, h⟩ | ⟨t, t1, t2⟩
      · cases h
      injection t2 with t2
      obtain ⟨ms', j1, j2⟩ : ∃ ms' : List Rat, t.leaves = ms'.map some ∧ ms'.Perm ms := by
        refine ⟨t.leaves.filterMap id, ?_, ?_⟩
        · have : ∀ l : List (Option Rat), (∀ o ∈ l, o ≠ none) → l = (l.filterMap id).map some := by
            intro l
            induction l with
            | nil => intro _; rfl
            | cons o l ih =>
              intro h
              cases o with
              | none => exact absurd rfl (h none (List.mem_cons_self ..))
              | some y =>
                exact congrArg (some y :: ·) (ih (fun o ho => h o (List.mem_cons_of_mem _ ho)))
          apply this
          intro o ho hoo
          have := t1.mem_iff.mp ho
          rw [List.mem_map] at this
          obtain ⟨y, _, hy⟩ := this
          rw [hoo] at hy; cases hy
        · have := t1.filterMap id
          rw [List.filterMap_map] at this
          simpa using this
      have hsum' : ms'.sum = ms.sum := j2.sum_eq
      have hlen : ms'.length ≤ D := by rw [j2.length_eq]; exact le_trans i3 (hD v)
      have hpos : 0 < ms'.length := by
        rw [List.length_pos_iff]
        rintro rfl
        exact t.leaves_ne j1
      have hH : ∀ k, k ≤ D + 6 → ((1 : Rat) + uD) ^ k ≤ 11 / 10 := by
        intro k hk
        refine le_trans (highD_mono hk) (le_trans (highD_le (by omega)) ?_)
        have : ((D + 6 : Nat) : Rat) ≤ 8796093022208 := by exact_mod_cast hK
        unfold relErrD
        linarith
      have hms2 : ms.sum ≤ 2 * pow2 50 := by
        have h1 := i4.2
        have h2 := hflmax v v1 v2
        have h3 := hH 1 (by omega)
        have h4 := mul_le_mul_of_nonneg_left h3 (hfl v)
        linarith [pow2_pos 50]
      have hms0 : 0 ≤ ms.sum := i4.nonneg (hfl v)
      obtain ⟨m, m1, m2, m3⟩ := addD_tree t ms' j1 (fun y hy => i2 y (j2.mem_iff.mp hy)) (by
        rw [hsum']
        have := mul_le_mul_of_nonneg_left (hH ms'.length (by omega)) hms0
        linarith)
      rw [hsum'] at m2
      have hm60 : m ≤ pow2 60 := by
        have h1 := m2.2
        have := mul_le_mul_of_nonneg_left (hH (ms'.length - 1) (by omega)) hms0
        have hp : (4 : Rat) * pow2 50 ≤ pow2 60 := by decide +kernel
        linarith
      have hval := hst.vals v v1 v2
      obtain ⟨d1, x1, a1, a2, a3, a4, a5, a6, a7⟩ := dpfApply_spec (v := P v) (d := d v) (x := x v) (m := m)
        (by rw [hval]) (by rw [hval]) (hst.pos v v1 v2) hlow (hxmax v v1 v2) m3 hm60
      have e2' : P' v = dpfApply alphaD z (P v) := e2
      have e3' : A' v = (P v).ne (dpfApply alphaD z (P v)) := e3
      rw [t2, m1] at e2' e3'
      rw [← e3'] at a5 a6
      -- the new delta
      have hh0 : 0 ≤ dpfSmall d v + 7 / 10 * flowIn es (dpfPend d A) v := by linarith [hsm.1, hfl v]
      have hnear : NearD (D + 6) (dpfSmall d v + 7 / 10 * flowIn es (dpfPend d A) v) d1 := by
        have h1 : NearD (1 + (ms'.length - 1)) (flowIn es (dpfPend d A) v) m := i4.trans m2
        have h2 := (h1.mul (c := 7 / 10) (by norm_num))
        have h3 := ((NearD.refl (dpfSmall d v)).mono (k := 1 + (ms'.length - 1)) hsm.1 (by omega)).add h2
        have h4 := h3.trans a4
        exact h4.mono hh0 (by omega)
      have hdelta := hnear.rel (by omega) hh0
      by_cases hb : tD < d1
      · obtain ⟨b1, b2⟩ := a6 hb
        have hu : |x1 - (x v + d1)| ≤ uD * (x v + d1) := by
          obtain ⟨b3, b4⟩ := b1
          rw [pow_one] at b3 b4
          rw [abs_le]
          constructor <;> linarith
        cases hA : A' v with
        | true =>
          refine ⟨d1, x1, 0, fun _ _ => ⟨?_, a2, fun _ => hb, a3, le_refl _, ?_, ?_, ?_⟩⟩
          · rw [e2', a1, hval]
          · simp only [if_true, if_pos hb, add_zero]
            exact hdelta
          · simp only [if_true, add_zero]
            exact hu
          · simp only [if_true, add_zero]
            have : (0 : Rat) ≤ uD * (x v + d1) := mul_nonneg (by norm_num) (by linarith)
            linarith
        | false =>
          have b2' := b2 hA
          refine ⟨d1, x1, d1, fun _ _ => ⟨?_, a2, by simp, a3, a2, ?_, ?_, ?_⟩⟩
          · rw [e2', a1, hval]
          · simp only [Bool.false_eq_true, if_false, if_pos hb, zero_add]
            exact hdelta
          · simp only [Bool.false_eq_true, if_false, add_zero]
            exact hu
          · simp only [Bool.false_eq_true, if_false, add_zero]
            have := (abs_le.mp hu).1
            linarith
      · have hA : A' v = false := by
          cases hA : A' v with
          | false => rfl
          | true => exact absurd (a5 hA) hb
        rw [a7 hb] at a1
        refine ⟨d1, x v, 0, fun _ _ => ⟨?_, a2, by simp [hA], hlow, le_refl _, ?_, ?_, ?_⟩⟩
        · rw [e2', a1, hval]
        · simp only [hA, Bool.false_eq_true, if_false, if_neg hb, zero_add, add_zero]
          exact hdelta
        · simp only [hA, Bool.false_eq_true, if_false, add_zero, sub_self, abs_zero]
          have : (0 : Rat) ≤ uD := by norm_num
          exact mul_nonneg this (by linarith)
        · simp only [hA, Bool.false_eq_true, if_false, add_zero]
          linarith
  choose d' x' g hall using hone
  refine ⟨d', x', g, ⟨?_, ?_, ?_, ?_⟩, ?_, ?_⟩
  · intro v v1 v2; exact (hall v v1 v2).1
  · intro v v1 v2; exact (hall v v1 v2).2.1
  · intro v v1 v2; exact (hall v v1 v2).2.2.1
  · intro v v1 v2; exact (hall v v1 v2).2.2.2.1
  · intro v v1 v2
    obtain ⟨_, _, _, _, h1, h2, h3, h4⟩ := hall v v1 v2
    exact ⟨h1, h2, h3, h4⟩
  · rw [r4]
    constructor
    · intro h v v1 v2
      rw [r3 v v1 v2, h v v1 v2]; rfl
    · intro h v v1 v2
      have := h v v1 v2
      rw [r3 v v1 v2] at this
      simpa using this

end GraphMat

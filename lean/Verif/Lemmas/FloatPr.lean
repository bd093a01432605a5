import Verif.Lemmas.Float
import Verif.Lemmas.PageRank

namespace GraphMat

variable {E : Type}

/-! ### Relative errors -/

/-- `y` is `x` up to `k` roundings of a `float`. -/
def Near (k : Nat) (x y : Rat) : Prop := x * (1 - 1 / 16777216) ^ k ≤ y ∧ y ≤ x * (1 + 1 / 16777216) ^ k

theorem Near.refl (x : Rat) : Near 0 x x := by simp [Near]

theorem lowK_pos (k : Nat) : (0 : Rat) < (1 - 1 / 16777216) ^ k := by
  have : (0 : Rat) < 1 - 1 / 16777216 := by norm_num
  positivity

theorem highK_pos (k : Nat) : (0 : Rat) < (1 + 1 / 16777216) ^ k := by positivity

theorem Near.nonneg {k : Nat} {x y : Rat} (h : Near k x y) (hx : 0 ≤ x) : 0 ≤ y :=
  le_trans (mul_nonneg hx (le_of_lt (lowK_pos k))) h.1

theorem Near.trans {j k : Nat} {x y z : Rat} (h1 : Near j x y) (h2 : Near k y z) : Near (j + k) x z := by
  constructor
  · refine le_trans ?_ h2.1
    rw [pow_add, ← mul_assoc]
    exact mul_le_mul_of_nonneg_right h1.1 (le_of_lt (lowK_pos k))
  · refine le_trans h2.2 ?_
    rw [pow_add, ← mul_assoc]
    exact mul_le_mul_of_nonneg_right h1.2 (le_of_lt (highK_pos k))

theorem lowK_anti {j k : Nat} (h : j ≤ k) : ((1 : Rat) - 1 / 16777216) ^ k ≤ (1 - 1 / 16777216) ^ j :=
  pow_le_pow_of_le_one (by norm_num) (by norm_num) h

theorem highK_mono {j k : Nat} (h : j ≤ k) : ((1 : Rat) + 1 / 16777216) ^ j ≤ (1 + 1 / 16777216) ^ k :=
  pow_le_pow_right₀ (by norm_num) h

theorem Near.mono {j k : Nat} {x y : Rat} (h : Near j x y) (hx : 0 ≤ x) (hjk : j ≤ k) : Near k x y :=
  ⟨le_trans (mul_le_mul_of_nonneg_left (lowK_anti hjk) hx) h.1,
   le_trans h.2 (mul_le_mul_of_nonneg_left (highK_mono hjk) hx)⟩

theorem Near.add {k : Nat} {x y x' y' : Rat} (h : Near k x y) (h' : Near k x' y') : Near k (x + x') (y + y') := by
  obtain ⟨a, b⟩ := h
  obtain ⟨a', b'⟩ := h'
  constructor
  · rw [add_mul]; linarith
  · rw [add_mul]; linarith

theorem Near.mul {k : Nat} {x y c : Rat} (hc : 0 ≤ c) (h : Near k x y) : Near k (c * x) (c * y) := by
  constructor
  · rw [mul_assoc]; exact mul_le_mul_of_nonneg_left h.1 hc
  · rw [mul_assoc]; exact mul_le_mul_of_nonneg_left h.2 hc

theorem Near.div {x d d' : Rat} (hx : 0 ≤ x) (hd : 0 < d) (h : Near 1 d d') : Near 2 (x / d) (x / d') := by
  obtain ⟨a, b⟩ := h
  rw [pow_one] at a b
  have hd' : 0 < d' := lt_of_lt_of_le (mul_pos hd (by norm_num)) a
  constructor
  · rw [div_mul_eq_mul_div, div_le_div_iff₀ hd hd']
    have : ((1 : Rat) - 1 / 16777216) ^ 2 * d' ≤ d := by
      calc ((1 : Rat) - 1 / 16777216) ^ 2 * d' ≤ (1 - 1 / 16777216) ^ 2 * (d * (1 + 1 / 16777216)) :=
            mul_le_mul_of_nonneg_left b (by norm_num)
        _ = ((1 - 1 / 16777216) ^ 2 * (1 + 1 / 16777216)) * d := by ring
        _ ≤ 1 * d := mul_le_mul_of_nonneg_right (by norm_num) (le_of_lt hd)
        _ = d := one_mul d
    rw [mul_assoc]
    exact mul_le_mul_of_nonneg_left this hx
  · rw [div_mul_eq_mul_div, div_le_div_iff₀ hd' hd]
    have : d ≤ ((1 : Rat) + 1 / 16777216) ^ 2 * d' := by
      calc d = 1 * d := (one_mul d).symm
        _ ≤ ((1 + 1 / 16777216) ^ 2 * (1 - 1 / 16777216)) * d := mul_le_mul_of_nonneg_right (by norm_num) (le_of_lt hd)
        _ = (1 + 1 / 16777216) ^ 2 * (d * (1 - 1 / 16777216)) := by ring
        _ ≤ (1 + 1 / 16777216) ^ 2 * d' := mul_le_mul_of_nonneg_left a (by norm_num)
    rw [mul_assoc]
    exact mul_le_mul_of_nonneg_left this hx

theorem near_of_rel {x y : Rat} (h : |y - x| ≤ 1 / 16777216 * x) : Near 1 x y := by
  rw [abs_le] at h
  constructor <;> rw [pow_one] <;> linarith

/-- The smallest number at which the errors are relative, also of a `double`. -/
def tiny : Rat := pow2 (-126)

theorem tiny_pos : 0 < tiny := pow2_pos _

theorem near32 {x : Rat} (h : tiny ≤ x) : Near 1 x (b32.near x) := by
  apply near_of_rel
  have := b32.near_rel h
  have e : pow2 (-(b32.prec : Int)) = 1 / 16777216 := by decide +kernel
  rwa [e] at this

theorem near64 {x : Rat} (h : tiny ≤ x) : Near 1 x (b64.near x) := by
  apply near_of_rel
  have hx : 0 ≤ x := le_trans (le_of_lt tiny_pos) h
  have := b64.near_rel (le_trans (pow2_le (by decide)) h)
  refine le_trans this (mul_le_mul_of_nonneg_right ?_ hx)
  have e : pow2 (-(24 : Int)) = 1 / 16777216 := by decide +kernel
  rw [← e]
  exact pow2_le (by decide)

theorem round32 {x : Rat} (h : tiny ≤ x) (hb : x ≤ pow2 100) : ∃ y, b32.round x = some y ∧ Near 1 x y := by
  have hx : 0 ≤ x := le_trans (le_of_lt tiny_pos) h
  refine ⟨_, ?_, near32 h⟩
  rw [b32.round_eq hx, if_pos]
  have := (near32 h).2
  have h2 : pow2 100 * (1 + 1 / 16777216) ^ 1 < pow2 (b32.emax + 1) := by decide +kernel
  refine lt_of_le_of_lt (le_trans this ?_) h2
  exact mul_le_mul_of_nonneg_right hb (by norm_num)

theorem round64 {x : Rat} (h : tiny ≤ x) (hb : x ≤ pow2 100) : ∃ y, b64.round x = some y ∧ Near 1 x y := by
  have hx : 0 ≤ x := le_trans (le_of_lt tiny_pos) h
  refine ⟨_, ?_, near64 h⟩
  rw [b64.round_eq hx, if_pos]
  have := (near64 h).2
  have h2 : pow2 101 < pow2 (b64.emax + 1) := pow2_lt (by decide)
  have h3 : pow2 100 * (1 + 1 / 16777216) ^ 1 ≤ pow2 101 := by decide +kernel
  refine lt_of_le_of_lt (le_trans this (le_trans ?_ h3)) h2
  exact mul_le_mul_of_nonneg_right hb (by norm_num)

theorem alphaF_val : alphaF = some (5033165 / 16777216) := by decide +kernel

/-! ### One message, the sum, one update -/

theorem prMessageF_near {v : PfV} {r : Rat} {d : Nat} (hr : v.rank = some r) (hd : v.deg = some (d : Int)) (h1 : 1 / 8 ≤ r)
    (h2 : r ≤ pow2 50) (hd1 : 1 ≤ d) (hd2 : d ≤ IMAX) : ∃ m, prMessageF v = some m ∧ Near 3 (r / d) m := by
  have hd1' : (1 : Rat) ≤ d := by exact_mod_cast hd1
  have hd2' : (d : Rat) ≤ 2147483647 := by unfold IMAX at hd2; exact_mod_cast hd2
  have ht : tiny ≤ 1 / 68719476736 := by decide +kernel
  have hp50 : pow2 50 * 16 ≤ pow2 100 := by decide +kernel
  have hp50' : (2147483647 : Rat) ≤ pow2 50 := by decide +kernel
  have hp0 := pow2_pos 50
  obtain ⟨d', e1, e2⟩ := round32 (x := (d : Rat)) (by linarith) (by linarith)
  have hdiv := Near.div (x := r) (by linarith) (by linarith) e2
  have hlow : (1 : Rat) / 17179869184 ≤ r / d := by
    rw [le_div_iff₀ (by linarith)]
    linarith
  have hhigh : r / d ≤ pow2 50 := by
    rw [div_le_iff₀ (by linarith)]
    nlinarith
  obtain ⟨m, f1, f2⟩ := round32 (x := r / d') (by
      have := hdiv.1
      have h3 : (1 : Rat) / 17179869184 * (1 - 1 / 16777216) ^ 2 ≤ r / d * (1 - 1 / 16777216) ^ 2 :=
        mul_le_mul_of_nonneg_right hlow (by norm_num)
      have h4 : (1 : Rat) / 68719476736 ≤ 1 / 17179869184 * (1 - 1 / 16777216) ^ 2 := by norm_num
      linarith) (by
      have := hdiv.2
      have h3 : r / d * (1 + 1 / 16777216) ^ 2 ≤ pow2 50 * (1 + 1 / 16777216) ^ 2 :=
        mul_le_mul_of_nonneg_right hhigh (by norm_num)
      have h4 : pow2 50 * (1 + 1 / 16777216) ^ 2 ≤ pow2 50 * 16 := mul_le_mul_of_nonneg_left (by norm_num) (le_of_lt hp0)
      linarith)
  refine ⟨m, ?_, hdiv.trans f2⟩
  unfold prMessageF
  rw [hd, hr]
  simp only [Option.getD_some]
  rw [if_neg (by omega)]
  simp only [Int.cast_natCast]
  rw [e1]
  exact f1

/-- Adding numbers in any order. -/
theorem addF_tree (t : RTree (Option Rat)) : ∀ (l : List Rat), t.leaves = l.map some → (∀ x ∈ l, 1 / 68719476736 ≤ x) →
    l.sum * (1 + 1 / 16777216) ^ l.length ≤ pow2 90 →
    ∃ y, t.eval addF = some y ∧ Near (l.length - 1) l.sum y ∧ 1 / 68719476736 ≤ y := by
  induction t with
  | leaf u =>
    intro l h hl _
    simp only [RTree.leaves] at h
    match l, h with
    | [x], h =>
      injection h with h
      exact ⟨x, by rw [RTree.eval, h], by simpa using Near.refl x, hl x (List.mem_cons_self ..)⟩
  | node a b iha ihb =>
    intro l h hl hb
    simp only [RTree.leaves] at h
    obtain ⟨l1, l2, rfl, e1, e2⟩ := List.append_eq_map_iff.mp h
    have hn1 : l1 ≠ [] := by rintro rfl; exact a.leaves_ne (by rw [← e1]; rfl)
    have hn2 : l2 ≠ [] := by rintro rfl; exact b.leaves_ne (by rw [← e2]; rfl)
    have hp1 : 0 < l1.length := List.length_pos_iff.mpr hn1
    have hp2 : 0 < l2.length := List.length_pos_iff.mpr hn2
    have hsum : ∀ l' : List Rat, l' ≠ [] → (∀ x ∈ l', 1 / 68719476736 ≤ x) → 1 / 68719476736 ≤ l'.sum := by
      intro l'
      induction l' with
      | nil => intro h; exact absurd rfl h
      | cons x l' ih =>
        intro _ hx
        rw [List.sum_cons]
        have h1 := hx x (List.mem_cons_self ..)
        by_cases hl' : l' = []
        · subst hl'; simpa using h1
        · have := ih hl' (fun y hy => hx y (List.mem_cons_of_mem _ hy))
          linarith
    have s1 := hsum l1 hn1 (fun x hx => hl x (List.mem_append_left _ hx))
    have s2 := hsum l2 hn2 (fun x hx => hl x (List.mem_append_right _ hx))
    rw [List.sum_append, List.length_append] at hb
    have hH := highK_pos (l1.length + l2.length)
    have hb1 : l1.sum * (1 + 1 / 16777216) ^ l1.length ≤ pow2 90 := by
      refine le_trans ?_ hb
      exact mul_le_mul (by linarith) (highK_mono (by omega)) (le_of_lt (highK_pos _)) (by linarith)
    have hb2 : l2.sum * (1 + 1 / 16777216) ^ l2.length ≤ pow2 90 := by
      refine le_trans ?_ hb
      exact mul_le_mul (by linarith) (highK_mono (by omega)) (le_of_lt (highK_pos _)) (by linarith)
    obtain ⟨y1, f1, g1, o1⟩ := iha l1 e1.symm (fun x hx => hl x (List.mem_append_left _ hx)) hb1
    obtain ⟨y2, f2, g2, o2⟩ := ihb l2 e2.symm (fun x hx => hl x (List.mem_append_right _ hx)) hb2
    have g1' := g1.mono (k := l1.length + l2.length - 2) (by linarith) (by omega)
    have g2' := g2.mono (k := l1.length + l2.length - 2) (by linarith) (by omega)
    have g := g1'.add g2'
    have ht : tiny ≤ 1 / 137438953472 := by decide +kernel
    have hpp : pow2 90 ≤ pow2 100 := pow2_le (by decide)
    obtain ⟨y, k1, k2⟩ := round32 (x := y1 + y2) (by linarith) (by
      refine le_trans g.2 (le_trans ?_ (le_trans hb hpp))
      exact mul_le_mul_of_nonneg_left (highK_mono (by omega)) (by linarith))
    refine ⟨y, ?_, ?_, ?_⟩
    · rw [RTree.eval, f1, f2]; exact k1
    · rw [List.sum_append, List.length_append]
      have := g.trans k2
      rw [show l1.length + l2.length - 2 + 1 = l1.length + l2.length - 1 by omega] at this
      exact this
    · have := k2.1
      rw [pow_one] at this
      linarith

theorem prApplyF_near {m : Rat} (h1 : 1 / 68719476736 ≤ m) (h2 : m ≤ pow2 90) :
    ∃ z, prApplyF alphaF (some m) = some z ∧ Near 4 (3 / 10 + 7 / 10 * m) z ∧ 5033165 / 16777216 ≤ z := by
  have ht : tiny ≤ 1 / 274877906944 := by decide +kernel
  have hp : pow2 90 * 2 + 4 ≤ pow2 100 := by decide +kernel
  have hc : b64.round (1 - 5033165 / 16777216) = some (11744051 / 16777216) := by decide +kernel
  obtain ⟨p, p1, p2⟩ := round64 (x := 11744051 / 16777216 * m) (by linarith) (by linarith)
  have p2' := p2
  rw [Near, pow_one, pow_one] at p2'
  obtain ⟨s, s1, s2⟩ := round64 (x := 5033165 / 16777216 + p) (by linarith) (by linarith)
  have s2' := s2
  rw [Near, pow_one, pow_one] at s2'
  obtain ⟨z, z1, z2⟩ := round32 (x := s) (by linarith) (by linarith)
  have z2' := z2
  rw [Near, pow_one, pow_one] at z2'
  have hm : (0 : Rat) ≤ 11744051 / 16777216 * m := by linarith
  refine ⟨z, ?_, ?_, ?_⟩
  · unfold prApplyF
    rw [alphaF_val]
    simp only [Option.bind_eq_bind, Option.bind_some]
    rw [hc]
    simp only [Option.bind_some]
    rw [p1]
    simp only [Option.bind_some]
    rw [s1]
    exact z1
  · have e1 : Near 1 (3 / 10 + 7 / 10 * m) (5033165 / 16777216 + 11744051 / 16777216 * m) := by
      constructor <;> rw [pow_one] <;> linarith
    have e2 : Near 1 (5033165 / 16777216 + 11744051 / 16777216 * m) (5033165 / 16777216 + p) :=
      Near.add ((Near.refl _).mono (by norm_num) (Nat.zero_le _)) p2
    exact ((e1.trans e2).trans s2).trans z2
  · have hs : b64.near (5033165 / 16777216) ≤ s := by
      have := b64.near_mono (by decide) (x := 5033165 / 16777216) (y := 5033165 / 16777216 + p) (by norm_num) (by linarith)
      have e : s = b64.near (5033165 / 16777216 + p) := by
        rw [b64.round_eq (by linarith)] at s1
        split at s1
        · injection s1 with s1; exact s1.symm
        · cases s1
      rw [e]; exact this
    have hz : b32.near (5033165 / 16777216) ≤ z := by
      have e0 : b64.near (5033165 / 16777216) = 5033165 / 16777216 := by decide +kernel
      rw [e0] at hs
      have := b32.near_mono (by decide) (x := 5033165 / 16777216) (y := s) (by norm_num) hs
      have e : z = b32.near s := by
        rw [b32.round_eq (by linarith)] at z1
        split at z1
        · injection z1 with z1; exact z1.symm
        · cases z1
      rw [e]; exact this
    have e1 : b32.near (5033165 / 16777216) = 5033165 / 16777216 := by decide +kernel
    rw [e1] at hz
    exact hz

/-! ### The sizes of the errors -/

theorem highK_mul (k : Nat) (x : Rat) (hx : 0 ≤ x) : (1 + x) ^ k * (1 - k * x) ≤ 1 := by
  induction k with
  | zero => simp
  | succ k ih =>
    have h : (1 + x) * (1 - ((k + 1 : Nat) : Rat) * x) ≤ 1 - k * x := by
      push_cast
      have : (0 : Rat) ≤ ((k : Rat) + 1) * (x * x) := by positivity
      nlinarith
    calc (1 + x) ^ (k + 1) * (1 - ((k + 1 : Nat) : Rat) * x) = (1 + x) ^ k * ((1 + x) * (1 - ((k + 1 : Nat) : Rat) * x)) := by
          rw [pow_succ]; ring
      _ ≤ (1 + x) ^ k * (1 - k * x) := mul_le_mul_of_nonneg_left h (by positivity)
      _ ≤ 1 := ih

theorem highK_le {k : Nat} (h : 11 * k ≤ 16777216) : ((1 : Rat) + 1 / 16777216) ^ k ≤ 1 + 11 / 10 * (k / 16777216) := by
  have h1 := highK_mul k (1 / 16777216) (by norm_num)
  have hk : (11 : Rat) * k ≤ 16777216 := by exact_mod_cast h
  have hk0 : (0 : Rat) ≤ k := by positivity
  have h2 : (1 : Rat) ≤ (1 + 11 / 10 * (k / 16777216)) * (1 - k * (1 / 16777216)) := by
    have : (0 : Rat) ≤ k / 16777216 := by positivity
    have h3 : (k : Rat) / 16777216 ≤ 1 / 11 := by rw [div_le_div_iff₀ (by norm_num) (by norm_num)]; linarith
    have e : (k : Rat) * (1 / 16777216) = k / 16777216 := by ring
    rw [e]
    generalize (k : Rat) / 16777216 = y at *
    nlinarith
  have hp : (0 : Rat) < 1 - k * (1 / 16777216) := by linarith
  have := le_trans h1 h2
  exact le_of_mul_le_mul_right this hp

theorem lowK_ge (k : Nat) : 1 - (k : Rat) / 16777216 ≤ (1 - 1 / 16777216) ^ k := by
  induction k with
  | zero => simp
  | succ k ih =>
    rw [pow_succ]
    have hk0 : (0 : Rat) ≤ k := by positivity
    have : (1 - (k : Rat) / 16777216) * (1 - 1 / 16777216) ≤ (1 - 1 / 16777216) ^ k * (1 - 1 / 16777216) :=
      mul_le_mul_of_nonneg_right ih (by norm_num)
    push_cast
    nlinarith

/-- The relative error of one iteration with `k` roundings. -/
def relErr (k : Nat) : Rat := 11 / 10 * (k / 16777216)

theorem relErr_le {k : Nat} (h : 11 * k ≤ 16777216) : relErr k ≤ 1 / 10 := by
  have hk : (11 : Rat) * k ≤ 16777216 := by exact_mod_cast h
  unfold relErr
  linarith

theorem Near.rel {k : Nat} (h : 11 * k ≤ 16777216) {x y : Rat} (hx : 0 ≤ x) (hn : Near k x y) : |y - x| ≤ relErr k * x := by
  have h1 := mul_le_mul_of_nonneg_left (highK_le h) hx
  have h2 := mul_le_mul_of_nonneg_left (lowK_ge k) hx
  have hk0 : (0 : Rat) ≤ x * (k / 16777216) := by positivity
  obtain ⟨a, b⟩ := hn
  unfold relErr
  rw [abs_le]
  constructor <;> nlinarith

/-! ### Errors summed over all vertices -/

/-- One iteration with relative error `δ` at every vertex that has in-edges. -/
def FStep (es : List (Edge E)) (n : Nat) (δ : Rat) (f g : Nat → Rat) : Prop :=
  ∀ v, 1 ≤ v → v ≤ n → if inDegree es v = 0 then g v = f v
    else |g v - prStep (3 / 10) es f v| ≤ δ * prStep (3 / 10) es f v

/-- What arrives at `v`. -/
def flow (es : List (Edge E)) (f : Nat → Rat) (v : Nat) : Rat :=
  ((es.filter (fun e => decide (e.dst = (v : Int)))).map (fun e => f e.src.toNat / (outDegree es e.src.toNat : Rat))).sum

theorem flow_nonneg {es : List (Edge E)} {f : Nat → Rat} (hf : ∀ v, 0 ≤ f v) (v : Nat) : 0 ≤ flow es f v :=
  edges_sum_nonneg hf v

theorem flow_total {n : Nat} {es : List (Edge E)} (hv : ∀ e ∈ es, e.Valid n) {f : Nat → Rat} (hf : ∀ v, 0 ≤ f v) :
    ∑ v ∈ Finset.Icc 1 n, flow es f v ≤ ∑ u ∈ Finset.Icc 1 n, f u := flow_le hv hf

theorem prStep_flow {es : List (Edge E)} {v : Nat} (h : inDegree es v ≠ 0) (f : Nat → Rat) :
    prStep (3 / 10) es f v = 3 / 10 + 7 / 10 * flow es f v := by
  unfold prStep flow
  rw [if_neg h]
  norm_num

theorem sum_three_tenths (n : Nat) (c : Rat) : ∑ _v ∈ Finset.Icc 1 n, c = n * c := by
  simp

theorem FStep.mass {n : Nat} {es : List (Edge E)} (hv : ∀ e ∈ es, e.Valid n) {δ : Rat} (hδ : δ ≤ 1 / 10)
    {f g : Nat → Rat} (hf : ∀ v, 0 ≤ f v) (h0 : ∀ v, 1 ≤ v → v ≤ n → inDegree es v = 0 → f v ≤ 33 / 100)
    (hm : ∑ v ∈ Finset.Icc 1 n, f v ≤ 3 / 2 * n) (h : FStep es n δ f g) : ∑ v ∈ Finset.Icc 1 n, g v ≤ 3 / 2 * n := by
  have h1 : ∑ v ∈ Finset.Icc 1 n, g v ≤ ∑ v ∈ Finset.Icc 1 n, (33 / 100 + 77 / 100 * flow es f v) := by
    apply Finset.sum_le_sum
    intro v hvv
    rw [Finset.mem_Icc] at hvv
    have hs := h v hvv.1 hvv.2
    have hfl := flow_nonneg (es := es) hf v
    split_ifs at hs with hd
    · rw [hs]
      have := h0 v hvv.1 hvv.2 hd
      linarith
    · rw [prStep_flow hd, abs_le] at hs
      nlinarith [hs.2]
  rw [Finset.sum_add_distrib, ← Finset.mul_sum, sum_three_tenths] at h1
  have h2 := flow_total hv hf
  have : (0 : Rat) ≤ n := by positivity
  linarith

theorem FStep.error {n : Nat} {es : List (Edge E)} (hv : ∀ e ∈ es, e.Valid n) {δ : Rat} (hδ0 : 0 ≤ δ)
    {f g x : Nat → Rat} (hf : ∀ v, 0 ≤ f v)
    (h0 : ∀ v, 1 ≤ v → v ≤ n → inDegree es v = 0 → |f v - x v| ≤ 3 / 10 * δ)
    (hm : ∑ v ∈ Finset.Icc 1 n, f v ≤ 3 / 2 * n) (he : ∑ v ∈ Finset.Icc 1 n, |f v - x v| ≤ 9 / 2 * δ * n)
    (h : FStep es n δ f g) : ∑ v ∈ Finset.Icc 1 n, |g v - prStep (3 / 10) es x v| ≤ 9 / 2 * δ * n := by
  have h1 : ∑ v ∈ Finset.Icc 1 n, |g v - prStep (3 / 10) es x v| ≤
      ∑ v ∈ Finset.Icc 1 n, (7 / 10 * flow es (fun u => |f u - x u|) v + (δ * (3 / 10) + δ * (7 / 10) * flow es f v)) := by
    apply Finset.sum_le_sum
    intro v hvv
    rw [Finset.mem_Icc] at hvv
    have hs := h v hvv.1 hvv.2
    have hfl := flow_nonneg (es := es) hf v
    have hfl2 := flow_nonneg (es := es) (f := fun u => |f u - x u|) (fun _ => abs_nonneg _) v
    have hfl3 : 0 ≤ δ * (7 / 10) * flow es f v := by positivity
    split_ifs at hs with hd
    · have e : prStep (3 / 10) es x v = x v := by unfold prStep; rw [if_pos hd]
      rw [hs, e]
      have := h0 v hvv.1 hvv.2 hd
      linarith
    · have hdiff := prStep_diff (es := es) f x hd
      have e : ((es.filter (fun e => decide (e.dst = (v : Int)))).map
        (fun e => |f e.src.toNat - x e.src.toNat| / (outDegree es e.src.toNat : Rat))).sum = flow es (fun u => |f u - x u|) v := rfl
      rw [e] at hdiff
      have htri := abs_sub_le (g v) (prStep (3 / 10) es f v) (prStep (3 / 10) es x v)
      rw [prStep_flow hd f] at hs
      rw [prStep_flow hd f] at htri hdiff
      linarith
  rw [Finset.sum_add_distrib, Finset.sum_add_distrib, ← Finset.mul_sum, ← Finset.mul_sum, sum_three_tenths] at h1
  have h2 := flow_total hv hf
  have h3 := flow_total hv (f := fun u => |f u - x u|) (fun _ => abs_nonneg _)
  have h4 : δ * (7 / 10) * ∑ v ∈ Finset.Icc 1 n, flow es f v ≤ δ * (7 / 10) * (3 / 2 * n) :=
    mul_le_mul_of_nonneg_left (le_trans h2 hm) (by positivity)
  rw [Finset.mul_sum] at h4
  have : (0 : Rat) ≤ δ * n := by positivity
  linarith

/-- Relative errors do not grow through an exact iteration. -/
theorem prStep_near {n : Nat} {es : List (Edge E)} (hv : ∀ e ∈ es, e.Valid n) {x f : Nat → Rat} {j : Nat}
    (h : ∀ v, 1 ≤ v → v ≤ n → Near j (x v) (f v)) {v : Nat} (h1 : 1 ≤ v) (h2 : v ≤ n) :
    Near j (prStep (3 / 10) es x v) (prStep (3 / 10) es f v) := by
  by_cases hd : inDegree es v = 0
  · unfold prStep
    rw [if_pos hd, if_pos hd]
    exact h v h1 h2
  · rw [prStep_flow hd, prStep_flow hd]
    refine Near.add ((Near.refl _).mono (by norm_num) (Nat.zero_le _)) (Near.mul (by norm_num) ?_)
    unfold flow
    have : ∀ l : List (Edge E), (∀ e ∈ l, e ∈ es) → Near j (l.map (fun e => x e.src.toNat / (outDegree es e.src.toNat : Rat))).sum
        (l.map (fun e => f e.src.toNat / (outDegree es e.src.toNat : Rat))).sum := by
      intro l
      induction l with
      | nil => intro _; exact (Near.refl _).mono (le_refl _) (Nat.zero_le _)
      | cons e l ih =>
        intro hl
        simp only [List.map_cons, List.sum_cons]
        refine Near.add ?_ (ih (fun e he => hl e (List.mem_cons_of_mem _ he)))
        obtain ⟨a1, a2, _, _⟩ := hv e (hl e (List.mem_cons_self ..))
        have := h e.src.toNat (by omega) (by omega)
        rw [div_eq_inv_mul, div_eq_inv_mul]
        exact Near.mul (by positivity) this
    exact this _ (fun e he => (List.mem_filter.mp he).1)

/-! ### The program -/

theorem degreeProgF_pure : Program.Pure (degreeProgF E) (fun _ _ => 1) (fun _ msg _ _ => some msg) := by
  intro s
  exact ⟨fun _ _ => rfl, fun _ _ _ _ => rfl, fun _ _ _ _ _ => rfl⟩

theorem degreeProgF_step {es : List (Edge E)} {n : Nat} (hdeg : ∀ v, outDegree es v ≤ IMAX) {P P' : Nat → PfV}
    {A' : Nat → Bool} {c : Bool} {act : Bool}
    (hs : StepRel ((degreeProgF E).gp ()) (fun _ => 1) (fun msg _ _ => some msg) act n es P (fun _ => true) P' A' c) :
    ∀ v, 1 ≤ v → v ≤ n → P' v = if outDegree es v = 0 then P v else { P v with deg := some (outDegree es v : Int) } := by
  obtain ⟨res, r1, r2, _, _⟩ := hs
  intro v v1 v2
  have e1 := r1 v v1 v2
  have e2 := r2 v v1 v2
  have hlen := inMsgs_length_all (fun _ : PfV => (1 : Int)) (fun msg (_ : E) _ => some msg) es P v
  cases hr : res v with
  | none =>
    have h0 : inMsgs (fun _ : PfV => (1 : Int)) (fun msg (_ : E) _ => some msg) es P (fun _ => true) v = [] :=
      e1.none_iff.mp hr
    rw [h0, List.length_nil] at hlen
    rw [if_pos hlen.symm, e2, hr]
    rfl
  | some x =>
    rw [hr] at e1
    have e1' : Reduces addInt (inMsgs (fun _ : PfV => (1 : Int)) (fun msg (_ : E) _ => some msg) es P (fun _ => true) v)
      (some x) := e1
    obtain ⟨o1, o2⟩ := e1'.ones (by
      intro u hu
      simp only [inMsgs, List.mem_filterMap] at hu
      obtain ⟨e, _, he⟩ := hu
      split at he
      · injection he with he; exact he.symm
      · cases he) (by rw [hlen]; exact hdeg v)
    rw [hlen] at o1 o2
    rw [if_neg (by omega), e2, hr, o1]
    rfl

theorem prProgF_pure : Program.Pure (prProgF E) (fun _ => prMessageF) (fun _ msg _ _ => msg) := by
  intro s
  exact ⟨fun _ _ => rfl, fun _ _ _ _ => rfl, fun _ _ _ _ _ => rfl⟩

/-- The properties hold the finite ranks `f`, not below the initial one and bounded in total, and the out-degrees. -/
structure FState (es : List (Edge E)) (n : Nat) (P : Nat → PfV) (f : Nat → Rat) : Prop where
  nonneg : ∀ v, 0 ≤ f v
  low : ∀ v, 1 ≤ v → v ≤ n → 5033165 / 16777216 ≤ f v
  mass : ∑ v ∈ Finset.Icc 1 n, f v ≤ 3 / 2 * n
  vals : ∀ v, 1 ≤ v → v ≤ n → P v = ⟨some (f v), some (outDegree es v : Int)⟩
  leaf : ∀ v, 1 ≤ v → v ≤ n → inDegree es v = 0 → f v = 5033165 / 16777216

theorem FState.le {es : List (Edge E)} {n : Nat} {P : Nat → PfV} {f : Nat → Rat} (h : FState es n P f) {v : Nat} (h1 : 1 ≤ v)
    (h2 : v ≤ n) : f v ≤ 3 / 2 * n :=
  le_trans (Finset.single_le_sum (f := f) (fun u _ => h.nonneg u) (Finset.mem_Icc.mpr ⟨h1, h2⟩)) h.mass

/-- One superstep: the new ranks are those of the exact iteration up to `D + 6` roundings, `D` being at least the
in-degrees. -/
theorem prProgF_step {es : List (Edge E)} {n : Nat} (hn : n ≤ IMAX) (hv : ∀ e ∈ es, e.Valid n)
    (hdeg : ∀ v, outDegree es v ≤ IMAX) {D : Nat} (hD : ∀ v, inDegree es v ≤ D) (hK : 11 * (D + 6) ≤ 16777216)
    {P P' : Nat → PfV} {f : Nat → Rat} (hf : FState es n P f)
    {A A' : Nat → Bool} (hA : ∀ v, 1 ≤ v → v ≤ n → A v = true) {c : Bool} {act : Bool}
    (hs : StepRel ((prProgF E).gp ()) prMessageF (fun msg _ _ => msg) act n es P A P' A' c) :
    (∃ g, FState es n P' g ∧ ∀ v, 1 ≤ v → v ≤ n → if inDegree es v = 0 then g v = f v
      else Near (D + 6) (prStep (3 / 10) es f v) (g v)) ∧
    (c = true ↔ ∀ v, 1 ≤ v → v ≤ n → (P v).ne (P' v) = false ∨ inDegree es v = 0) ∧
    (act = true → ∀ v, 1 ≤ v → v ≤ n → A' v = true) := by
  obtain ⟨res, r1, r2, r3, r4⟩ := hs
  have hA' : ∀ e ∈ es, A e.src.toNat = true := by
    intro e he
    obtain ⟨a1, a2, _, _⟩ := hv e he
    exact hA _ (by omega) (by omega)
  have hmsgs := fun v => outMsgs_all prMessageF (fun msg (_ : E) (_ : PfV) => msg) hA' P v
  have hn' : (n : Rat) ≤ 2147483647 := by unfold IMAX at hn; exact_mod_cast hn
  have hnone : ∀ v, 1 ≤ v → v ≤ n → (res v = none ↔ inDegree es v = 0) := by
    intro v v1 v2
    rw [(r1 v v1 v2).none_iff, inDegree_filter]
    show outMsgs prMessageF (fun msg (_ : E) (_ : PfV) => msg) es P A v = [] ↔ _
    rw [hmsgs v, List.map_eq_nil_iff, List.length_eq_zero_iff]
  -- the value at one vertex
  have hone : ∀ v, 1 ≤ v → v ≤ n → ∃ z, P' v = ⟨some z, some (outDegree es v : Int)⟩ ∧ 5033165 / 16777216 ≤ z ∧
      if inDegree es v = 0 then z = f v else Near (D + 6) (prStep (3 / 10) es f v) z := by
    intro v v1 v2
    have e2 := r2 v v1 v2
    cases hr : res v with
    | none =>
      rw [hr] at e2
      refine ⟨f v, ?_, hf.low v v1 v2, ?_⟩
      · rw [e2]; exact hf.vals v v1 v2
      · rw [if_pos ((hnone v v1 v2).mp hr)]
    | some x =>
      have hd : inDegree es v ≠ 0 := by
        intro h
        have := (hnone v v1 v2).mpr h
        rw [hr] at this; cases this
      have e1 := r1 v v1 v2
      rw [hr] at e1 e2
      have e1' : Reduces addF (outMsgs prMessageF (fun msg (_ : E) (_ : PfV) => msg) es P A v) (some x) := e1
      rw [hmsgs v] at e1'
      rcases e1' with ⟨_, h⟩ | ⟨t, t1, t2⟩
      · cases h
      injection t2 with t2
      -- the messages are numbers
      have hm : ∀ e ∈ es.filter (fun e => decide (e.dst = (v : Int))), ∃ m, prMessageF (P e.src.toNat) = some m ∧
          Near 3 (f e.src.toNat / (outDegree es e.src.toNat : Rat)) m ∧ 1 / 68719476736 ≤ m := by
        intro e he
        obtain ⟨he1, _⟩ := List.mem_filter.mp he
        obtain ⟨a1, a2, _, _⟩ := hv e he1
        have hp := outDegree_pos he1 (by omega)
        have hval := hf.vals e.src.toNat (by omega) (by omega)
        have hlow := hf.low e.src.toNat (by omega) (by omega)
        have hle := hf.le (v := e.src.toNat) (by omega) (by omega)
        have hp50 : (3 : Rat) / 2 * 2147483647 ≤ pow2 50 := by decide +kernel
        obtain ⟨m, m1, m2⟩ := prMessageF_near (v := P e.src.toNat) (r := f e.src.toNat) (d := outDegree es e.src.toNat)
          (by rw [hval]) (by rw [hval]) (by linarith) (by linarith) hp (hdeg _)
        refine ⟨m, m1, m2, ?_⟩
        have h1 : (1 : Rat) / 17179869184 ≤ f e.src.toNat / (outDegree es e.src.toNat : Rat) := by
          have hd0 : (0 : Rat) < outDegree es e.src.toNat := by exact_mod_cast hp
          have hd1 : (outDegree es e.src.toNat : Rat) ≤ 2147483647 := by
            have := hdeg e.src.toNat
            unfold IMAX at this; exact_mod_cast this
          rw [le_div_iff₀ hd0]
          linarith
        have h2 : (1 : Rat) / 17179869184 * (1 - 1 / 16777216) ^ 3 ≤
            f e.src.toNat / (outDegree es e.src.toNat : Rat) * (1 - 1 / 16777216) ^ 3 :=
          mul_le_mul_of_nonneg_right h1 (by norm_num)
        have h3 : (1 : Rat) / 68719476736 ≤ 1 / 17179869184 * (1 - 1 / 16777216) ^ 3 := by norm_num
        linarith [m2.1]
      have hex : ∀ l : List (Edge E), (∀ e ∈ l, e ∈ es.filter (fun e => decide (e.dst = (v : Int)))) →
          ∃ ms : List Rat, l.map (fun e => prMessageF (P e.src.toNat)) = ms.map some ∧ (∀ m ∈ ms, 1 / 68719476736 ≤ m) ∧
            ms.length = l.length ∧
            Near 3 (l.map (fun e => f e.src.toNat / (outDegree es e.src.toNat : Rat))).sum ms.sum := by
        intro l
        induction l with
        | nil => intro _; exact ⟨[], rfl, by simp, rfl, (Near.refl _).mono (le_refl _) (Nat.zero_le _)⟩
        | cons e l ih =>
          intro hl
          obtain ⟨ms, i1, i2, i3, i4⟩ := ih (fun e he => hl e (List.mem_cons_of_mem _ he))
          obtain ⟨m, m1, m2, m3⟩ := hm e (hl e (List.mem_cons_self ..))
          refine ⟨m :: ms, by simp [i1, m1], ?_, by simp [i3], ?_⟩
          · intro y hy
            rcases List.mem_cons.mp hy with rfl | hy
            · exact m3
            · exact i2 y hy
          · simp only [List.map_cons, List.sum_cons]
            exact m2.add i4
      obtain ⟨ms, i1, i2, i3, i4⟩ := hex _ (fun e he => he)
      rw [← inDegree_filter] at i3
      rw [i1] at t1
      -- the leaves of the tree are such a list in another order
      obtain ⟨ms', j1, j2⟩ : ∃ ms' : List Rat, t.leaves = ms'.map some ∧ ms'.Perm ms := by
        refine ⟨t.leaves.filterMap id, ?_, ?_⟩
        · have : ∀ l : List (Option Rat), (∀ o ∈ l, o ≠ none) → l = (l.filterMap id).map some := by
            intro l
            induction l with
            | nil => intro _; rfl
            | cons o l ih =>
              intro h
              cases o with
              | none => exact absurd rfl (h none (List.mem_cons_self ..))
              | some y =>
                exact congrArg (some y :: ·) (ih (fun o ho => h o (List.mem_cons_of_mem _ ho)))
          apply this
          intro o ho hoo
          have := t1.mem_iff.mp ho
          rw [List.mem_map] at this
          obtain ⟨y, _, hy⟩ := this
          rw [hoo] at hy; cases hy
        · have := t1.filterMap id
          rw [List.filterMap_map] at this
          simpa using this
      have hflow := flow_nonneg (es := es) hf.nonneg v
      have hS : flow es f v ≤ 3 / 2 * 2147483647 := by
        have h1 := Finset.single_le_sum (f := fun v => flow es f v) (fun u _ => flow_nonneg (es := es) hf.nonneg u)
          (Finset.mem_Icc.mpr ⟨v1, v2⟩)
        have h2 := flow_total hv hf.nonneg
        have := hf.mass
        linarith
      have i4' : Near 3 (flow es f v) ms.sum := i4
      have hlen : ms'.length = inDegree es v := by rw [j2.length_eq, i3]
      have hsum' : ms'.sum = ms.sum := j2.sum_eq
      have hpos : 0 < ms'.length := by rw [hlen]; omega
      have hH : ∀ k, k ≤ D + 6 → ((1 : Rat) + 1 / 16777216) ^ k ≤ 11 / 10 := by
        intro k hk
        refine le_trans (highK_le (by omega)) ?_
        have := relErr_le (k := k) (by omega)
        unfold relErr at this
        linarith
      have hDv := hD v
      have hms : ms.sum ≤ 3 / 2 * 2147483647 * (11 / 10) := by
        refine le_trans i4'.2 ?_
        exact mul_le_mul hS (hH 3 (by omega)) (by positivity) (by norm_num)
      have hms0 : 0 ≤ ms.sum := i4'.nonneg hflow
      have hp90 : (3 : Rat) / 2 * 2147483647 * (11 / 10) * (11 / 10) ≤ pow2 90 := by decide +kernel
      obtain ⟨y, y1, y2, y3⟩ := addF_tree t ms' j1 (fun m hm => i2 m (j2.mem_iff.mp hm)) (by
        rw [hsum', hlen]
        refine le_trans ?_ hp90
        exact mul_le_mul hms (hH _ (by omega)) (by positivity) (by norm_num))
      rw [hsum', hlen] at y2
      rw [y1] at t2
      obtain ⟨z, z1, z2, z3⟩ := prApplyF_near y3 (by
        refine le_trans y2.2 (le_trans ?_ hp90)
        exact mul_le_mul hms (hH _ (by omega)) (by positivity) (by norm_num))
      refine ⟨z, ?_, z3, ?_⟩
      · rw [e2, t2]
        show ({ P v with rank := prApplyF alphaF (some y) } : PfV) = _
        rw [z1, hf.vals v v1 v2]
      · rw [if_neg hd, prStep_flow hd]
        have hy : Near (3 + (inDegree es v - 1)) (flow es f v) y := i4'.trans y2
        have hy' := Near.add ((Near.refl (3 / 10)).mono (by norm_num) (Nat.zero_le (3 + (inDegree es v - 1))))
          (hy.mul (show (0 : Rat) ≤ 7 / 10 by norm_num))
        refine (hy'.trans z2).mono (by linarith) (by omega)
  refine ⟨?_, ?_, ?_⟩
  · have hch : ∀ v, ∃ z, (1 ≤ v → v ≤ n → P' v = ⟨some z, some (outDegree es v : Int)⟩ ∧ 5033165 / 16777216 ≤ z ∧
      if inDegree es v = 0 then z = f v else Near (D + 6) (prStep (3 / 10) es f v) z) ∧ 0 ≤ z := by
      intro v
      by_cases h : 1 ≤ v ∧ v ≤ n
      · obtain ⟨z, z1, z2, z3⟩ := hone v h.1 h.2
        exact ⟨z, fun _ _ => ⟨z1, z2, z3⟩, by linarith⟩
      · exact ⟨0, fun h1 h2 => absurd ⟨h1, h2⟩ h, le_refl _⟩
    obtain ⟨g, hg⟩ := Classical.axiomOfChoice hch
    have hnear : ∀ v, 1 ≤ v → v ≤ n → if inDegree es v = 0 then g v = f v
      else Near (D + 6) (prStep (3 / 10) es f v) (g v) := fun v v1 v2 => ((hg v).1 v1 v2).2.2
    refine ⟨g, ⟨fun v => (hg v).2, fun v v1 v2 => ((hg v).1 v1 v2).2.1, ?_, fun v v1 v2 => ((hg v).1 v1 v2).1, ?_⟩, hnear⟩
    · refine FStep.mass hv (relErr_le hK) hf.nonneg ?_ hf.mass (δ := relErr (D + 6)) ?_
      · intro v v1 v2 h0
        rw [hf.leaf v v1 v2 h0]; norm_num
      · intro v v1 v2
        have := hnear v v1 v2
        split_ifs at this ⊢ with h0
        · exact this
        · refine this.rel hK ?_
          rw [prStep_flow h0]
          have := flow_nonneg (es := es) hf.nonneg v
          linarith
    · intro v v1 v2 h0
      have := hnear v v1 v2
      rw [if_pos h0] at this
      rw [this, hf.leaf v v1 v2 h0]
  · rw [r4]
    have hg : ∀ v, 1 ≤ v → v ≤ n → (gotChanged ((prProgF E).gp ()).apply ((prProgF E).gp ()).ne (P v) (res v) = false ↔
        ((P v).ne (P' v) = false ∨ inDegree es v = 0)) := by
      intro v v1 v2
      have e2 := r2 v v1 v2
      cases hr : res v with
      | none =>
        simp [gotChanged, (hnone v v1 v2).mp hr]
      | some x =>
        rw [hr] at e2
        have hgc : gotChanged ((prProgF E).gp ()).apply ((prProgF E).gp ()).ne (P v) (some x) = (P v).ne (P' v) := by
          rw [e2]; rfl
        have hd : ¬ inDegree es v = 0 := by
          intro h
          have := (hnone v v1 v2).mpr h
          rw [hr] at this; cases this
        rw [hgc]
        simp [hd]
    constructor
    · intro hq v v1 v2; exact (hg v v1 v2).mp (hq v v1 v2)
    · intro hq v v1 v2; exact (hg v v1 v2).mpr (hq v v1 v2)
  · intro ha v v1 v2
    rw [r3 v v1 v2, ha]; rfl

end GraphMat

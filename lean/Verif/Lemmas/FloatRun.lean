import Verif.Lemmas.FloatPr

namespace GraphMat

variable {S T U V E : Type}

/-! ### Reduced values are monotone in the messages -/

/-- Both absent, or both present and related. -/
def ORel (r : U → U → Prop) : Option U → Option U → Prop
  | none, none => True
  | some a, some b => r a b
  | _, _ => False

theorem combine_mono {r : U → U → Prop} {add : U → U → U} (hadd : ∀ a a' b b', r a a' → r b b' → r (add a b) (add a' b'))
    {a a' b b' : Option U} (h : ORel r a a') (h' : ORel r b b') : ORel r (combine add a b) (combine add a' b') := by
  cases a <;> cases a' <;> simp only [ORel] at h <;> cases b <;> cases b' <;> simp only [ORel] at h' <;>
    simp only [combine, ORel]
  · exact h'
  · exact h
  · exact hadd _ _ _ _ h h'

theorem accum_mono {r : U → U → Prop} {add : U → U → U} (hadd : ∀ a a' b b', r a a' → r b b' → r (add a b) (add a' b'))
    {l l' : List U} (hl : List.Forall₂ r l l') : ∀ {a a' : Option U}, ORel r a a' → ORel r (accum add a l) (accum add a' l') := by
  induction hl with
  | nil => intro a a' h; exact h
  | cons h1 _ ih =>
    intro a a' h
    exact ih (combine_mono hadd h h1)

theorem foldl_mono {r : U → U → Prop} {add : U → U → U} (hadd : ∀ a a' b b', r a a' → r b b' → r (add a b) (add a' b'))
    {f f' : Nat → List U} (hf : ∀ k, List.Forall₂ r (f k) (f' k)) (l : List Nat) : ∀ {a a' : Option U}, ORel r a a' →
      ORel r (l.foldl (fun acc k => combine add acc (accum add none (f k))) a)
        (l.foldl (fun acc k => combine add acc (accum add none (f' k))) a') := by
  induction l with
  | nil => intro a a' h; exact h
  | cons k l ih =>
    intro a a' h
    exact ih (combine_mono hadd h (accum_mono hadd (hf k) (a := none) (a' := none) trivial))

theorem incoming_mono {r : U → U → Prop} {xs xs' : Nat → Option T} {pm pm' : Nat → E → T → U} {w : Nat}
    (hx : ∀ v e, ORel r ((xs v).map (pm w e)) ((xs' v).map (pm' w e))) (es : List (Edge E)) :
    List.Forall₂ r (incoming xs pm es w) (incoming xs' pm' es w) := by
  unfold incoming
  induction es with
  | nil => exact .nil
  | cons e l ih =>
    rw [List.filterMap_cons, List.filterMap_cons]
    by_cases h : e.src = (w : Int)
    · rw [if_pos h, if_pos h]
      have := hx e.dst.toNat e.val
      cases h1 : (xs e.dst.toNat).map (pm w e.val) <;> cases h2 : (xs' e.dst.toNat).map (pm' w e.val) <;>
        rw [h1, h2] at this <;> simp only [ORel] at this
      · exact ih
      · exact .cons this ih
    · rw [if_neg h, if_neg h]; exact ih

/-- If the messages of one state are related to those of another, so are the reduced values. -/
theorem exactRes_mono {gp : GProg T U V E} {msg : V → T} {n nrank threads : Nat} {TA TT : Nat → Nat → Tile E}
    {PA PT : Nat → Nat → Nat → List (Col E)} {P P' : Nat → V} {r : U → U → Prop} {proc : T → E → V → U}
    (hord : gp.order = .out) (hadd : ∀ a a' b b', r a a' → r b b' → r (gp.reduce a b) (gp.reduce a' b'))
    (hm : ∀ v u u' e, 1 ≤ v → v ≤ n → r (proc (msg (P v)) e u) (proc (msg (P' v)) e u')) (d : Nat) :
    ORel r (exactRes gp msg proc n nrank threads TA TT PA PT P (fun _ => true) d)
      (exactRes gp msg proc n nrank threads TA TT PA PT P' (fun _ => true) d) := by
  unfold exactRes
  rw [hord]
  simp only
  unfold productRes rowFold
  cases getPartition n nrank (v2n (threads * 16 * nrank) n d) with
  | none => trivial
  | some p =>
    simp only
    have hin : ∀ k, List.Forall₂ r _ _ := fun k => incoming_mono (r := r)
      (xs := nativeMsgs (threads * 16 * nrank) n msg P (fun _ => true))
      (xs' := nativeMsgs (threads * 16 * nrank) n msg P' (fun _ => true))
      (pm := fun w e x => proc x e (P (n2v (threads * 16 * nrank) n w)))
      (pm' := fun w e x => proc x e (P' (n2v (threads * 16 * nrank) n w))) (w := v2n (threads * 16 * nrank) n d) (by
        intro v e
        unfold nativeMsgs
        by_cases h : 1 ≤ v ∧ v ≤ n
        · rw [if_pos ⟨h.1, h.2, rfl⟩, if_pos ⟨h.1, h.2, rfl⟩]
          have hr := n2v_range (np := threads * 16 * nrank) h.1 h.2
          exact hm _ _ _ _ hr.1 hr.2
        · rw [if_neg (fun hh => h ⟨hh.1, hh.2.1⟩), if_neg (fun hh => h ⟨hh.1, hh.2.1⟩)]
          trivial) (rankEdges n n nrank nrank (own2d nrank) TT PT k)
    exact foldl_mono hadd hin _ (accum_mono hadd (hin _) (a := none) (a' := none) trivial)

/-! ### Floating-point operations are monotone -/

/-- The order of nonnegative numbers; an overflow is above all. -/
def FLe (a b : Option Rat) : Prop := b = none ∨ ∃ x y, a = some x ∧ b = some y ∧ 0 ≤ x ∧ x ≤ y

theorem round_FLe {f : FloatFmt} (hp : 1 ≤ f.prec) {x y : Rat} (hx : 0 ≤ x) (h : x ≤ y) : FLe (f.round x) (f.round y) := by
  have hm := f.near_mono hp hx h
  rw [f.round_eq hx, f.round_eq (le_trans hx h)]
  by_cases hy : f.near y < pow2 (f.emax + 1)
  · rw [if_pos hy, if_pos (lt_of_le_of_lt hm hy)]
    exact .inr ⟨_, _, rfl, rfl, f.near_nonneg hx, hm⟩
  · rw [if_neg hy]; exact .inl rfl

theorem FLe.bind {g h : Rat → Option Rat} {a b : Option Rat} (hab : FLe a b)
    (hgh : ∀ x y, 0 ≤ x → x ≤ y → FLe (g x) (h y)) : FLe (a.bind g) (b.bind h) := by
  rcases hab with rfl | ⟨x, y, rfl, rfl, h0, h1⟩
  · exact .inl rfl
  · exact hgh x y h0 h1

theorem addF_FLe {a a' b b' : Option Rat} (h : FLe a a') (h' : FLe b b') : FLe (addF a b) (addF a' b') := by
  refine h.bind (fun x y hx hxy => h'.bind (fun z w hz hzw => ?_))
  exact round_FLe (by decide) (by linarith) (by linarith)

theorem prApplyF_FLe {m m' : Option Rat} (h : FLe m m') : FLe (prApplyF alphaF m) (prApplyF alphaF m') := by
  have hc : b64.round (1 - 5033165 / 16777216) = some (11744051 / 16777216) := by decide +kernel
  unfold prApplyF
  rw [alphaF_val]
  simp only [Option.bind_eq_bind, Option.bind_some]
  rw [hc]
  simp only [Option.bind_some]
  refine h.bind (fun x y hx hxy => ?_)
  refine FLe.bind (round_FLe (by decide) (by positivity) (by linarith)) (fun p q hp hpq => ?_)
  refine FLe.bind (round_FLe (by decide) (by positivity) (by linarith)) (fun s t hs hst => ?_)
  exact round_FLe (by decide) hs hst

theorem prMessageF_FLe {v v' : PfV} {d : Nat} (h1 : v.deg = some (d : Int)) (h2 : v'.deg = some (d : Int))
    (h : FLe v.rank v'.rank) : FLe (prMessageF v) (prMessageF v') := by
  unfold prMessageF
  rw [h1, h2]
  simp only [Option.getD_some]
  by_cases hd : (d : Int) = 0
  · rw [if_pos hd, if_pos hd]
    exact .inr ⟨0, 0, rfl, rfl, le_refl _, le_refl _⟩
  · rw [if_neg hd, if_neg hd]
    refine h.bind (fun x y hx hxy => ?_)
    have hd0 : (0 : Rat) ≤ ((d : Int) : Rat) := by simp
    have hq := b32.round_eq hd0
    cases hr : b32.round ((d : Int) : Rat) with
    | none => exact .inl rfl
    | some q =>
      have hq0 : 0 ≤ q := by
        rw [hr] at hq
        split at hq
        · injection hq with hq; rw [hq]; exact b32.near_nonneg hd0
        · cases hq
      exact round_FLe (by decide) (div_nonneg hx hq0) (div_le_div_of_nonneg_right hxy hq0)

/-! ### The ranks along a run -/

/-- What is known after `k` iterations: the error in total and at each vertex. -/
structure FInv (es : List (Edge E)) (n D k : Nat) (P : Nat → PfV) (f : Nat → Rat) : Prop where
  state : FState es n P f
  total : ∑ v ∈ Finset.Icc 1 n, |f v - prIter es k v| ≤ 9 / 2 * relErr (D + 6) * n
  each : ∀ v, 1 ≤ v → v ≤ n → Near (1 + (D + 6) * k) (prIter es k v) (f v)

theorem prIter_pos (es : List (Edge E)) (k : Nat) : ∀ v, 0 ≤ prIter es k v := by
  induction k with
  | zero => intro v; show (0 : Rat) ≤ 3 / 10; norm_num
  | succ k ih =>
    intro v
    show 0 ≤ prStep (3 / 10) es (prIter es k) v
    by_cases h : inDegree es v = 0
    · unfold prStep; rw [if_pos h]; exact ih v
    · rw [prStep_flow h]
      have := flow_nonneg (es := es) ih v
      linarith

theorem prIter_leaf {es : List (Edge E)} {v : Nat} (h : inDegree es v = 0) (k : Nat) : prIter es k v = 3 / 10 := by
  induction k with
  | zero => rfl
  | succ k ih =>
    show prStep (3 / 10) es (prIter es k) v = _
    unfold prStep; rw [if_pos h]; exact ih

theorem relErr_low (D : Nat) : 1 / 16777216 ≤ relErr (D + 6) := by
  unfold relErr
  push_cast
  have : (0 : Rat) ≤ D := by positivity
  linarith

theorem FInv.zero {es : List (Edge E)} {n D : Nat} {P : Nat → PfV}
    (hP : ∀ v, 1 ≤ v → v ≤ n → P v = ⟨alphaF, some (outDegree es v : Int)⟩) :
    FInv es n D 0 P (fun _ => 5033165 / 16777216) := by
  have hn : (0 : Rat) ≤ n := by positivity
  have hr := relErr_low D
  have hd : |(5033165 : Rat) / 16777216 - 3 / 10| ≤ 1 / 16777216 := by
    rw [abs_le]; constructor <;> norm_num
  refine ⟨⟨fun _ => by norm_num, fun _ _ _ => le_refl _, ?_, ?_, fun _ _ _ _ => rfl⟩, ?_, ?_⟩
  · rw [sum_three_tenths]; linarith
  · intro v v1 v2
    rw [hP v v1 v2, alphaF_val]
  · have : ∑ v ∈ Finset.Icc 1 n, |(5033165 : Rat) / 16777216 - prIter es 0 v| ≤ ∑ _v ∈ Finset.Icc 1 n, (1 / 16777216 : Rat) :=
      Finset.sum_le_sum (fun v _ => hd)
    rw [sum_three_tenths] at this
    refine le_trans this ?_
    have h2 : (n : Rat) * (1 / 16777216) ≤ n * relErr (D + 6) := mul_le_mul_of_nonneg_left hr hn
    have h3 : 0 ≤ (n : Rat) * relErr (D + 6) := mul_nonneg hn (by linarith)
    linarith
  · intro v v1 v2
    show Near 1 (3 / 10) _
    constructor <;> norm_num

theorem FInv.succ {es : List (Edge E)} {n D k : Nat} (hv : ∀ e ∈ es, e.Valid n) (hK : 11 * (D + 6) ≤ 16777216)
    {P P' : Nat → PfV} {f g : Nat → Rat} (h : FInv es n D k P f) (hg : FState es n P' g)
    (hs : ∀ v, 1 ≤ v → v ≤ n → if inDegree es v = 0 then g v = f v else Near (D + 6) (prStep (3 / 10) es f v) (g v)) :
    FInv es n D (k + 1) P' g := by
  have hr := relErr_low D
  refine ⟨hg, ?_, ?_⟩
  · refine FStep.error hv (x := prIter es k) (by linarith) h.state.nonneg ?_ h.state.mass h.total ?_
    · intro v v1 v2 h0
      rw [h.state.leaf v v1 v2 h0, prIter_leaf h0]
      have : |(5033165 : Rat) / 16777216 - 3 / 10| ≤ 3 / 10 * (1 / 16777216) := by
        rw [abs_le]; constructor <;> norm_num
      linarith
    · intro v v1 v2
      have := hs v v1 v2
      split_ifs at this ⊢ with h0
      · exact this
      · refine this.rel hK ?_
        rw [prStep_flow h0]
        have := flow_nonneg (es := es) h.state.nonneg v
        linarith
  · intro v v1 v2
    have hx := prIter_pos es (k + 1) v
    have hstep := hs v v1 v2
    split_ifs at hstep with h0
    · rw [hstep]
      have := h.each v v1 v2
      rw [prIter_leaf h0] at this ⊢
      exact this.mono (by norm_num) (by rw [Nat.mul_succ]; omega)
    · have h1 : Near (1 + (D + 6) * k) (prIter es (k + 1) v) (prStep (3 / 10) es f v) := prStep_near hv h.each v1 v2
      have h2 := h1.trans hstep
      rw [show 1 + (D + 6) * k + (D + 6) = 1 + (D + 6) * (k + 1) by rw [Nat.mul_succ]; omega] at h2
      exact h2

/-- After any number of supersteps from the initial ranks. -/
theorem steps_FInv {es : List (Edge E)} {n D : Nat} (hn : n ≤ IMAX) (hv : ∀ e ∈ es, e.Valid n)
    (hdeg : ∀ v, outDegree es v ≤ IMAX) (hD : ∀ v, inDegree es v ≤ D) (hK : 11 * (D + 6) ≤ 16777216) {P0 : Nat → PfV}
    {A0 : Nat → Bool} (hA0 : ∀ v, A0 v = true)
    (hP : ∀ v, 1 ≤ v → v ≤ n → P0 v = ⟨alphaF, some (outDegree es v : Int)⟩) {k : Nat} {P : Nat → PfV} {A : Nat → Bool}
    {s : Unit} {cs : List Bool}
    (h : Steps (prProgF E).gp (prProgF E).every (fun _ => prMessageF) (fun _ msg _ _ => msg) true n es P0 A0 () k P A s cs) :
    ∃ f, FInv es n D k P f ∧ ∀ v, 1 ≤ v → v ≤ n → A v = true := by
  induction h with
  | zero => exact ⟨_, FInv.zero hP, fun v _ _ => hA0 v⟩
  | succ g1 g2 ih =>
    obtain ⟨f, i1, i2⟩ := ih
    obtain ⟨⟨g, m1, m2⟩, _, m3⟩ := prProgF_step hn hv hdeg hD hK i1.state i2 g2
    exact ⟨g, FInv.succ hv hK i1 m1 m2, m3 rfl⟩

/-! ### Convergence -/

/-- The exact ranks hardly change after 100 iterations. -/
theorem prIter_tail {n : Nat} {es : List (Edge E)} (hv : ∀ e ∈ es, e.Valid n) (hn : n ≤ IMAX) (j : Nat) :
    ∑ v ∈ Finset.Icc 1 n, |prIter es (100 + j) v - prIter es 100 v| ≤ 1 / 1000000 := by
  have hgeo : ∑ v ∈ Finset.Icc 1 n, |prIter es (100 + j) v - prIter es 100 v| ≤
      (7 / 10) ^ 100 * (7 / 10 * n) * (1 - (7 / 10) ^ j) := by
    induction j with
    | zero => simp
    | succ j ih =>
      have h1 : ∑ v ∈ Finset.Icc 1 n, |prIter es (100 + (j + 1)) v - prIter es 100 v| ≤
          prChange es n (100 + j) + ∑ v ∈ Finset.Icc 1 n, |prIter es (100 + j) v - prIter es 100 v| := by
        unfold prChange
        rw [← Finset.sum_add_distrib]
        exact Finset.sum_le_sum (fun v _ => abs_sub_le _ _ _)
      have h2 := prChange_le hv (100 + j)
      rw [pow_add] at h2
      rw [pow_succ _ j]
      generalize (7 / 10 : Rat) ^ 100 = c at *
      linarith
  have hn' : (n : Rat) ≤ 2147483647 := by unfold IMAX at hn; exact_mod_cast hn
  have h0 : (0 : Rat) ≤ n := by positivity
  have hj : (0 : Rat) ≤ (7 / 10) ^ j := by positivity
  have h1 : (7 / 10 : Rat) ^ 100 * (7 / 10 * n) * (1 - (7 / 10) ^ j) ≤ (7 / 10) ^ 100 * (7 / 10 * n) * 1 :=
    mul_le_mul_of_nonneg_left (by linarith) (by positivity)
  have h2 : (7 / 10 : Rat) ^ 100 * (7 / 10 * n) ≤ (7 / 10) ^ 100 * (7 / 10 * 2147483647) :=
    mul_le_mul_of_nonneg_left (by linarith) (by positivity)
  have h3 : (7 / 10 : Rat) ^ 100 * (7 / 10 * 2147483647) ≤ 1 / 1000000 := by norm_num
  linarith

/-- Ranks that count as different differ by nearly 0.00001. -/
theorem PfV.ne_diff {a b : PfV} {x y : Rat} (ha : a.rank = some x) (hb : b.rank = some y) (hxy : x ≤ y)
    (h : a.ne b = true) : 99 / 10000000 ≤ y - x := by
  apply Classical.byContradiction
  intro hlt
  rw [not_le] at hlt
  have ht : b64.round (1 / 100000) = some (b64.near (1 / 100000)) := by decide +kernel
  have hd : (0 : Rat) ≤ y - x := by linarith
  have hm := b32.near_mono (by decide) hd (le_of_lt hlt)
  have hn0 := b32.near_nonneg hd
  have hc : b32.near (99 / 10000000) < b64.near (1 / 100000) := by decide +kernel
  have hbd : b32.near (99 / 10000000) < pow2 (b32.emax + 1) := by decide +kernel
  have hr : b32.round (y - x) = some (b32.near (y - x)) := by
    rw [b32.round_eq hd, if_pos (lt_of_le_of_lt hm hbd)]
  unfold PfV.ne at h
  rw [ha, hb, ht] at h
  simp only at h
  rw [hr] at h
  simp only [decide_eq_true_iff] at h
  rw [mag_eq, abs_of_nonneg hn0] at h
  linarith

theorem PfV.same_diff {a b : PfV} {x y : Rat} (ha : a.rank = some x) (hb : b.rank = some y) (h : a.ne b = false) :
    y - x ≤ 100001 / 10000000000 := by
  apply Classical.byContradiction
  intro hlt
  rw [not_le] at hlt
  have ht : b64.round (1 / 100000) = some (b64.near (1 / 100000)) := by decide +kernel
  have hm := b32.near_mono (by decide) (by norm_num) (le_of_lt hlt)
  have hd : (0 : Rat) ≤ y - x := by linarith
  have hn0 := b32.near_nonneg hd
  have hc : b64.near (1 / 100000) < b32.near (100001 / 10000000000) := by decide +kernel
  unfold PfV.ne at h
  rw [ha, hb, ht] at h
  simp only at h
  rw [b32.round_eq hd] at h
  by_cases hb : b32.near (y - x) < pow2 (b32.emax + 1)
  · rw [if_pos hb] at h
    simp only [decide_eq_false_iff_not] at h
    rw [mag_eq, abs_of_nonneg hn0] at h
    exact h (lt_of_lt_of_le hc hm)
  · rw [if_neg hb] at h
    cases h

/-- A sequence of ranks that never decrease, stay near the exact ones, and visibly change in every one of the first
`N` iterations: `N` is not large. -/
theorem few_changes {n D N : Nat} {es : List (Edge E)} (hv : ∀ e ∈ es, e.Valid n) (hn : n ≤ IMAX) {f : Nat → Nat → Rat}
    (herr : ∀ k, k ≤ N → ∑ v ∈ Finset.Icc 1 n, |f k v - prIter es k v| ≤ 9 / 2 * relErr (D + 6) * n)
    (hmono : ∀ k, k < N → ∀ v, 1 ≤ v → v ≤ n → f k v ≤ f (k + 1) v)
    (hch : ∀ k, k < N → ∃ v, 1 ≤ v ∧ v ≤ n ∧ 99 / 10000000 ≤ f (k + 1) v - f k v) :
    N ≤ 101 + (D + 6) * n / 16 := by
  apply Classical.byContradiction
  intro hN
  rw [Nat.not_le] at hN
  obtain ⟨j, rfl⟩ : ∃ j, N = 100 + j := ⟨N - 100, by omega⟩
  have hstep : ∀ k, k < 100 + j → ∑ v ∈ Finset.Icc 1 n, f k v + 99 / 10000000 ≤ ∑ v ∈ Finset.Icc 1 n, f (k + 1) v := by
    intro k hk
    obtain ⟨v, v1, v2, hd⟩ := hch k hk
    have hmem : v ∈ Finset.Icc 1 n := Finset.mem_Icc.mpr ⟨v1, v2⟩
    rw [← Finset.add_sum_erase _ _ hmem, ← Finset.add_sum_erase _ (fun v => f (k + 1) v) hmem]
    have : ∑ u ∈ (Finset.Icc 1 n).erase v, f k u ≤ ∑ u ∈ (Finset.Icc 1 n).erase v, f (k + 1) u := by
      apply Finset.sum_le_sum
      intro u hu
      obtain ⟨_, hu⟩ := Finset.mem_erase.mp hu
      obtain ⟨u1, u2⟩ := Finset.mem_Icc.mp hu
      exact hmono k hk u u1 u2
    linarith
  have hsum : ∀ i, i ≤ j → ∑ v ∈ Finset.Icc 1 n, f 100 v + i * (99 / 10000000) ≤ ∑ v ∈ Finset.Icc 1 n, f (100 + i) v := by
    intro i
    induction i with
    | zero => intro _; simp
    | succ i ih =>
      intro hi
      have h1 := ih (by omega)
      have h2 := hstep (100 + i) (by omega)
      push_cast
      have e : 100 + (i + 1) = 100 + i + 1 := by omega
      rw [e]
      linarith
  have h1 := hsum j (Nat.le_refl _)
  have hup : ∑ v ∈ Finset.Icc 1 n, f (100 + j) v - ∑ v ∈ Finset.Icc 1 n, f 100 v ≤ 9 * relErr (D + 6) * n + 1 / 1000000 := by
    rw [← Finset.sum_sub_distrib]
    have ha := herr (100 + j) (Nat.le_refl _)
    have hb := herr 100 (by omega)
    have hc := prIter_tail hv hn j
    have : ∑ v ∈ Finset.Icc 1 n, (f (100 + j) v - f 100 v) ≤ ∑ v ∈ Finset.Icc 1 n,
        (|f (100 + j) v - prIter es (100 + j) v| + |f 100 v - prIter es 100 v| +
          |prIter es (100 + j) v - prIter es 100 v|) := by
      apply Finset.sum_le_sum
      intro v _
      have a1 := le_abs_self (f (100 + j) v - prIter es (100 + j) v)
      have a2 := neg_abs_le (f 100 v - prIter es 100 v)
      have a3 := le_abs_self (prIter es (100 + j) v - prIter es 100 v)
      linarith
    rw [Finset.sum_add_distrib, Finset.sum_add_distrib] at this
    linarith
  have hj : (D + 6) * n / 16 + 2 ≤ j := by omega
  have hjq : ((D + 6) * n : Rat) / 16 + 1 ≤ j := by
    have h3 : (D + 6) * n + 16 ≤ 16 * j := by
      have := Nat.lt_div_mul_add (a := (D + 6) * n) (b := 16) (by omega)
      omega
    have h3' : ((D + 6) * n : Rat) + 16 ≤ 16 * j := by exact_mod_cast h3
    linarith
  unfold relErr at hup
  push_cast at hup
  have hK0 : (0 : Rat) ≤ (D + 6) * n := by positivity
  have e : 9 * (11 / 10 * (((D : Rat) + 6) / 16777216)) * n = 99 / 10 / 16777216 * ((D + 6) * n) := by ring
  rw [e] at hup
  generalize ((D : Rat) + 6) * n = Y at *
  linarith

/-! ### One fixed run -/

/-- The run of the program on one graph object. -/
def prCtx (n nrank threads : Nat) (TA TT : Nat → Nat → Tile E) (PA PT : Nat → Nat → Nat → List (Col E))
    (es : List (Edge E)) : RunCtx Unit (Option Rat) (Option Rat) PfV E :=
  ⟨prProgF E, fun _ => prMessageF, fun _ msg _ _ => msg, true, n, nrank, threads, TA, TT, PA, PT, es⟩

section
variable {n nrank threads : Nat} {TA TT : Nat → Nat → Tile E} {PA PT : Nat → Nat → Nat → List (Col E)}
  {es : List (Edge E)} {P0 : Nat → PfV}

theorem prCtx_all (c : Cfg n nrank threads) (env : Nat → StepEnv (Option Rat) (Option Rat) PfV)
    {st0 : RunState Unit (Option Rat) (Option Rat) PfV E}
    (h0 : (prCtx n nrank threads TA TT PA PT es).At ⟨P0, fun _ => true, ()⟩ 0 st0 []) (k : Nat) (hk : k ≤ IMAX) :
    ∃ st cs, (prCtx n nrank threads TA TT PA PT es).At ⟨P0, fun _ => true, ()⟩ k st cs := by
  induction k with
  | zero => exact ⟨_, _, h0⟩
  | succ k ih =>
    obtain ⟨st, cs, h⟩ := ih (by omega)
    obtain ⟨st', _, h', _⟩ := runBody_spec (R := prCtx n nrank threads TA TT PA PT es) c prProgF_pure env h (by omega)
    exact ⟨_, _, h'⟩

theorem prCtx_active (k : Nat) : ((prCtx n nrank threads TA TT PA PT es).iter ⟨P0, fun _ => true, ()⟩ k).A = fun _ => true := by
  cases k <;> rfl

theorem prCtx_mono {D K : Nat} {F : Nat → Nat → Rat}
    (hF : ∀ k, k ≤ K → FInv es n D k ((prCtx n nrank threads TA TT PA PT es).iter ⟨P0, fun _ => true, ()⟩ k).P (F k))
    (hP : ∀ v, 1 ≤ v → v ≤ n → P0 v = ⟨alphaF, some (outDegree es v : Int)⟩) :
    ∀ k, k < K → ∀ v, 1 ≤ v → v ≤ n → F k v ≤ F (k + 1) v := by
  have hval := fun k hk v v1 v2 => (hF k hk).state.vals v v1 v2
  have key : ∀ k, k < K → ∀ v, 1 ≤ v → v ≤ n →
      FLe (((prCtx n nrank threads TA TT PA PT es).iter ⟨P0, fun _ => true, ()⟩ k).P v).rank
        (((prCtx n nrank threads TA TT PA PT es).iter ⟨P0, fun _ => true, ()⟩ (k + 1)).P v).rank := by
    intro k
    induction k with
    | zero =>
      intro hk v v1 v2
      rw [hval 1 (by omega) v v1 v2]
      show FLe (P0 v).rank _
      rw [hP v v1 v2, alphaF_val]
      exact .inr ⟨_, _, rfl, rfl, by norm_num, (hF 1 (by omega)).state.low v v1 v2⟩
    | succ k ih =>
      intro hk v v1 v2
      have hrel : ORel FLe
          ((prCtx n nrank threads TA TT PA PT es).res ((prCtx n nrank threads TA TT PA PT es).iter ⟨P0, fun _ => true, ()⟩ k) v)
          ((prCtx n nrank threads TA TT PA PT es).res
            ((prCtx n nrank threads TA TT PA PT es).iter ⟨P0, fun _ => true, ()⟩ (k + 1)) v) := by
        unfold RunCtx.res
        rw [prCtx_active, prCtx_active]
        refine exactRes_mono (r := FLe) rfl (fun a a' b b' => addF_FLe) ?_ v
        intro u _ _ _ u1 u2
        refine prMessageF_FLe (d := outDegree es u) ?_ ?_ (ih (by omega) u u1 u2)
        · rw [hval k (by omega) u u1 u2]
        · rw [hval (k + 1) (by omega) u u1 u2]
      have ihv := ih (by omega) v v1 v2
      show FLe (PfV.rank (afterApply _ _ (RunCtx.res _ _ v))) (PfV.rank (afterApply _ _ (RunCtx.res _ _ v)))
      cases h1 : (prCtx n nrank threads TA TT PA PT es).res
          ((prCtx n nrank threads TA TT PA PT es).iter ⟨P0, fun _ => true, ()⟩ k) v <;>
        cases h2 : (prCtx n nrank threads TA TT PA PT es).res
          ((prCtx n nrank threads TA TT PA PT es).iter ⟨P0, fun _ => true, ()⟩ (k + 1)) v <;>
        rw [h1, h2] at hrel <;> simp only [ORel] at hrel
      · exact ihv
      · exact prApplyF_FLe hrel
  intro k hk v v1 v2
  have := key k hk v v1 v2
  rw [hval k (by omega) v v1 v2, hval (k + 1) (by omega) v v1 v2] at this
  rcases this with h | ⟨x, y, h1, h2, _, h3⟩
  · cases h
  · injection h1 with h1
    injection h2 with h2
    rw [h1, h2]; exact h3

theorem prCtx_change {D k : Nat} {F : Nat → Nat → Rat}
    (hk : FInv es n D k ((prCtx n nrank threads TA TT PA PT es).iter ⟨P0, fun _ => true, ()⟩ k).P (F k))
    (hk1 : FInv es n D (k + 1) ((prCtx n nrank threads TA TT PA PT es).iter ⟨P0, fun _ => true, ()⟩ (k + 1)).P (F (k + 1)))
    (hm : ∀ v, 1 ≤ v → v ≤ n → F k v ≤ F (k + 1) v)
    (hq : ¬ (prCtx n nrank threads TA TT PA PT es).quiet
      ((prCtx n nrank threads TA TT PA PT es).iter ⟨P0, fun _ => true, ()⟩ k)) :
    ∃ v, 1 ≤ v ∧ v ≤ n ∧ 99 / 10000000 ≤ F (k + 1) v - F k v := by
  apply Classical.byContradiction
  intro hno
  apply hq
  intro v v1 v2
  cases hr : (prCtx n nrank threads TA TT PA PT es).res
      ((prCtx n nrank threads TA TT PA PT es).iter ⟨P0, fun _ => true, ()⟩ k) v with
  | none => rfl
  | some u =>
    rw [← Bool.not_eq_true]
    intro hc
    apply hno
    refine ⟨v, v1, v2, ?_⟩
    have hnext : ((prCtx n nrank threads TA TT PA PT es).iter ⟨P0, fun _ => true, ()⟩ (k + 1)).P v =
        { ((prCtx n nrank threads TA TT PA PT es).iter ⟨P0, fun _ => true, ()⟩ k).P v with rank := prApplyF alphaF u } := by
      show afterApply _ _ (RunCtx.res _ _ v) = _
      rw [hr]; rfl
    have hne : PfV.ne (((prCtx n nrank threads TA TT PA PT es).iter ⟨P0, fun _ => true, ()⟩ k).P v)
        (((prCtx n nrank threads TA TT PA PT es).iter ⟨P0, fun _ => true, ()⟩ (k + 1)).P v) = true := by
      rw [hnext]; exact hc
    refine PfV.ne_diff ?_ ?_ (hm v v1 v2) hne
    · rw [hk.state.vals v v1 v2]
    · rw [hk1.state.vals v v1 v2]

theorem prCtx_quiet {D k : Nat} {F : Nat → Nat → Rat}
    (hk : FInv es n D k ((prCtx n nrank threads TA TT PA PT es).iter ⟨P0, fun _ => true, ()⟩ k).P (F k))
    (hk1 : FInv es n D (k + 1) ((prCtx n nrank threads TA TT PA PT es).iter ⟨P0, fun _ => true, ()⟩ (k + 1)).P (F (k + 1)))
    (hq : (prCtx n nrank threads TA TT PA PT es).quiet
      ((prCtx n nrank threads TA TT PA PT es).iter ⟨P0, fun _ => true, ()⟩ k)) :
    ∀ v, 1 ≤ v → v ≤ n → F (k + 1) v - F k v ≤ 100001 / 10000000000 := by
  intro v v1 v2
  have h := hq v v1 v2
  have hnext : ((prCtx n nrank threads TA TT PA PT es).iter ⟨P0, fun _ => true, ()⟩ (k + 1)).P v =
      afterApply ((prProgF E).gp ()).apply (((prCtx n nrank threads TA TT PA PT es).iter ⟨P0, fun _ => true, ()⟩ k).P v)
        ((prCtx n nrank threads TA TT PA PT es).res
          ((prCtx n nrank threads TA TT PA PT es).iter ⟨P0, fun _ => true, ()⟩ k) v) := rfl
  cases hr : (prCtx n nrank threads TA TT PA PT es).res
      ((prCtx n nrank threads TA TT PA PT es).iter ⟨P0, fun _ => true, ()⟩ k) v with
  | none =>
    rw [hr] at hnext
    rw [hk1.state.vals v v1 v2, afterApply, hk.state.vals v v1 v2] at hnext
    injection hnext with h1
    injection h1 with h1
    rw [h1, sub_self]; norm_num
  | some u =>
    rw [hr] at h hnext
    have hne : PfV.ne (((prCtx n nrank threads TA TT PA PT es).iter ⟨P0, fun _ => true, ()⟩ k).P v)
        (((prCtx n nrank threads TA TT PA PT es).iter ⟨P0, fun _ => true, ()⟩ (k + 1)).P v) = false := by
      rw [hnext]; exact h
    refine PfV.same_diff ?_ ?_ hne
    · rw [hk.state.vals v v1 v2]
    · rw [hk1.state.vals v v1 v2]

/-- All that is known about one run: the ranks `F k` after `k` iterations. -/
theorem prCtx_run (c : Cfg n nrank threads) (hn : n ≤ IMAX) (env : Nat → StepEnv (Option Rat) (Option Rat) PfV)
    (hv : ∀ e ∈ es, e.Valid n) (hdeg : ∀ v, outDegree es v ≤ IMAX) {D : Nat} (hD : ∀ v, inDegree es v ≤ D)
    (hK : 11 * (D + 6) ≤ 16777216) (hP : ∀ v, 1 ≤ v → v ≤ n → P0 v = ⟨alphaF, some (outDegree es v : Int)⟩)
    {st0 : RunState Unit (Option Rat) (Option Rat) PfV E}
    (h0 : (prCtx n nrank threads TA TT PA PT es).At ⟨P0, fun _ => true, ()⟩ 0 st0 []) :
    ∃ F : Nat → Nat → Rat,
      (∀ k, k ≤ IMAX → FInv es n D k ((prCtx n nrank threads TA TT PA PT es).iter ⟨P0, fun _ => true, ()⟩ k).P (F k)) ∧
      (∀ k, k < IMAX → ∀ v, 1 ≤ v → v ≤ n → F k v ≤ F (k + 1) v) ∧
      ∀ N, N ≤ IMAX → (∀ i, i < N → ¬ (prCtx n nrank threads TA TT PA PT es).quiet
        ((prCtx n nrank threads TA TT PA PT es).iter ⟨P0, fun _ => true, ()⟩ i)) → N ≤ 101 + (D + 6) * n / 16 := by
  have hex : ∀ k, ∃ f, k ≤ IMAX →
      FInv es n D k ((prCtx n nrank threads TA TT PA PT es).iter ⟨P0, fun _ => true, ()⟩ k).P f := by
    intro k
    by_cases hk : k ≤ IMAX
    · obtain ⟨st, cs, h⟩ := prCtx_all c env h0 k hk
      obtain ⟨f, h1, _⟩ := steps_FInv hn hv hdeg hD hK (fun _ => rfl) hP h.steps
      exact ⟨f, fun _ => h1⟩
    · exact ⟨fun _ => 0, fun h => absurd h hk⟩
  obtain ⟨F, hF⟩ := Classical.axiomOfChoice hex
  have hm := prCtx_mono hF hP
  refine ⟨F, hF, hm, ?_⟩
  intro N hN hq
  refine few_changes (f := F) hv hn (fun k hk => (hF k (by omega)).total) (fun k hk => hm k (by omega)) ?_
  intro k hk
  exact prCtx_change (hF k (by omega)) (hF (k + 1) (by omega)) (hm k (by omega)) (hq k hk)

end

/-- Allocation, activation and the degree pass on a loaded graph object. -/
theorem degreePassF {n nrank threads : Nat} (c : Cfg n nrank threads) {G : Graph PfV E} {es : List (Edge E)}
    (hG : G.Loaded n nrank threads es (fun _ => PfV.new)) (hdeg : ∀ v, outDegree es v ≤ IMAX)
    (e1 : AppEnv Int (Option Int) PfV) (fuel : Nat) (hf : 1 ≤ fuel) :
    ∃ x1 y1 G1 st P, G.newScratch e1.ie = some (x1, y1) ∧ G.onVertices (VGraph.setAllActive e1.gia) = some G1 ∧
      Graph.run e1.ie e1.env (degreeProgF E) () 1 (some (x1, y1)) G1 fuel = some (.done st) ∧
      st.G.Loaded n nrank threads es P ∧ ∀ v, 1 ≤ v → v ≤ n → P v = ⟨alphaF, some (outDegree es v : Int)⟩ := by
  obtain ⟨x1, y1, s1, s2⟩ := Graph.newScratch_spec c hG.inv e1.ie
  obtain ⟨G1, a1, a2⟩ := hG.setAllActive c e1.gia
  obtain ⟨st1, P1, A1, cs, d1, d2, d3, d4, d5, _⟩ := run_executes_exactly_N c e1.ie e1.env degreeProgF_pure ()
    (scratch := some (x1, y1)) a2 (by rintro _ ⟨⟩; exact s2) 1 (Nat.le_refl _) (by decide) fuel (by omega)
  refine ⟨x1, y1, G1, st1, P1, s1, a1, d1, d3.loaded, ?_⟩
  intro v v1 v2
  generalize st1.s = s' at d5
  cases d5 with
  | succ g1 g2 =>
    cases g1
    rw [degreeProgF_step hdeg g2 v v1 v2]
    by_cases h : outDegree es v = 0
    · rw [if_pos h, h]; rfl
    · rw [if_neg h]; rfl

end GraphMat

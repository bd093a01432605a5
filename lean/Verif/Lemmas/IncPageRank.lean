import Verif.Model.IncPageRank
import Verif.Spec.IncPageRank
import Verif.Lemmas.PageRank
import Mathlib.LinearAlgebra.FiniteDimensional.Basic

namespace GraphMat

variable {E : Type}

/-- The threshold `1e-8`. -/
local notation "dprEps" => (1 / 100000000 : Rat)

theorem dprBig_iff {x : Rat} : dprBig x = true ↔ dprEps < |x| := by
  unfold dprBig
  rw [decide_eq_true_iff]
  by_cases h : x < 0
  · rw [if_pos h, abs_of_neg h]
  · rw [if_neg h, abs_of_nonneg (not_lt.mp h)]

/-! ### The degree pass -/

theorem dprDegreeProg_pure : Program.Pure (dprDegreeProg E) (fun _ _ => 1) (fun _ msg _ _ => some msg) := by
  intro s
  exact ⟨fun _ _ => rfl, fun _ _ _ _ => rfl, fun _ _ _ _ _ => rfl⟩

theorem dprDegreeProg_step {es : List (Edge E)} {n : Nat} (hdeg : ∀ v, outDegree es v ≤ IMAX) {P P' : Nat → DprV}
    {A' : Nat → Bool} {c : Bool} {act : Bool}
    (hs : StepRel ((dprDegreeProg E).gp ()) (fun _ => 1) (fun msg _ _ => some msg) act n es P (fun _ => true) P' A' c) :
    ∀ v, 1 ≤ v → v ≤ n → P' v = if outDegree es v = 0 then P v else { P v with deg := some (outDegree es v : Int) } := by
  obtain ⟨res, r1, r2, _, _⟩ := hs
  intro v v1 v2
  have e1 := r1 v v1 v2
  have e2 := r2 v v1 v2
  have hlen := inMsgs_length_all (fun _ : DprV => (1 : Int)) (fun msg (_ : E) _ => some msg) es P v
  cases hr : res v with
  | none =>
    have h0 : inMsgs (fun _ : DprV => (1 : Int)) (fun msg (_ : E) _ => some msg) es P (fun _ => true) v = [] :=
      e1.none_iff.mp hr
    rw [h0, List.length_nil] at hlen
    rw [if_pos hlen.symm, e2, hr]
    rfl
  | some x =>
    rw [hr] at e1
    have e1' : Reduces addInt (inMsgs (fun _ : DprV => (1 : Int)) (fun msg (_ : E) _ => some msg) es P (fun _ => true) v)
      (some x) := e1
    obtain ⟨o1, o2⟩ := e1'.ones (by
      intro u hu
      simp only [inMsgs, List.mem_filterMap] at hu
      obtain ⟨e, _, he⟩ := hu
      split at he
      · injection he with he; exact he.symm
      · cases he) (by rw [hlen]; exact hdeg v)
    rw [hlen] at o1 o2
    rw [if_neg (by omega), e2, hr, o1]
    rfl

/-! ### One superstep -/

theorem dprProg_pure (alpha : Rat) : Program.Pure (dprProg E alpha) (fun _ => dprMessage) (fun _ msg _ _ => msg) := by
  intro s
  exact ⟨fun _ _ => rfl, fun _ _ _ _ => rfl, fun _ _ _ _ _ => rfl⟩

/-- The part of a vertex's delta that has been neither added to its rank nor sent. -/
def dprSmall (v : DprV) : Rat := if dprBig v.delta then 0 else v.delta

/-- The part of a vertex's delta that has been added to its rank and is still to be sent. -/
def dprPend (P : Nat → DprV) (A : Nat → Bool) (v : Nat) : Rat := if A v = true then (P v).delta else 0

/-- The state between supersteps. -/
structure DprState (es : List (Edge E)) (n : Nat) (P : Nat → DprV) (A : Nat → Bool) : Prop where
  deg : ∀ v, 1 ≤ v → v ≤ n → (P v).deg = some (outDegree es v : Int)
  pos : ∀ v, 1 ≤ v → v ≤ n → 0 ≤ (P v).delta
  big : ∀ v, 1 ≤ v → v ≤ n → A v = true → dprEps < (P v).delta
  eqn : ∀ v, 1 ≤ v → v ≤ n → (P v).rank + dprSmall (P v) =
    3 / 10 + 7 / 10 * flowIn es (fun u => (P u).rank - dprPend P A u) v

theorem dprMsgs_sum {es : List (Edge E)} {n : Nat} (hv : ∀ e ∈ es, e.Valid n) {P : Nat → DprV} {A : Nat → Bool}
    (hd : ∀ v, 1 ≤ v → v ≤ n → (P v).deg = some (outDegree es v : Int)) (v : Nat) :
    (outMsgs dprMessage (fun msg (_ : E) (_ : DprV) => msg) es P A v).sum = flowIn es (dprPend P A) v := by
  unfold outMsgs flowIn
  have key : ∀ l : List (Edge E), (∀ e ∈ l, e ∈ es) →
      (l.filterMap (fun e => if e.dst = (v : Int) ∧ A e.src.toNat = true
        then some (dprMessage (P e.src.toNat)) else none)).sum =
      ((l.filter (fun e => decide (e.dst = (v : Int)))).map
        (fun e => dprPend P A e.src.toNat / (outDegree es e.src.toNat : Rat))).sum := by
    intro l
    induction l with
    | nil => intro _; rfl
    | cons a l ih =>
      intro hl
      have ih' := ih (fun e he => hl e (List.mem_cons_of_mem _ he))
      have ha := hl a (List.mem_cons_self ..)
      obtain ⟨a1, a2, _, _⟩ := hv a ha
      rw [List.filterMap_cons, List.filter_cons]
      by_cases h1 : a.dst = (v : Int)
      · by_cases h2 : A a.src.toNat = true
        · have hp := outDegree_pos ha (by omega)
          have : dprMessage (P a.src.toNat) = dprPend P A a.src.toNat / (outDegree es a.src.toNat : Rat) := by
            unfold dprMessage dprPend
            rw [hd _ (by omega) (by omega), if_pos h2, Option.getD_some, if_neg (by omega)]
            norm_cast
          rw [if_pos ⟨h1, h2⟩]
          simp only [h1, decide_true, if_true, List.map_cons, List.sum_cons]
          rw [this, ih']
        · have : dprPend P A a.src.toNat = 0 := if_neg h2
          rw [if_neg (fun h => h2 h.2)]
          simp only [h1, decide_true, if_true, List.map_cons, List.sum_cons]
          rw [this, ih']
          simp
      · rw [if_neg (fun h => h1 h.1)]
        simp only [h1, decide_false, Bool.false_eq_true, if_false]
        exact ih'
  exact key es (fun _ h => h)

theorem flowIn_congr {es : List (Edge E)} {n : Nat} (hv : ∀ e ∈ es, e.Valid n) {g h : Nat → Rat}
    (heq : ∀ u, 1 ≤ u → u ≤ n → g u = h u) (v : Nat) : flowIn es g v = flowIn es h v := by
  unfold flowIn
  congr 1
  apply List.map_congr_left
  intro e he
  obtain ⟨a1, a2, _, _⟩ := hv e (List.mem_filter.mp he).1
  rw [heq e.src.toNat (by omega) (by omega)]

theorem flowIn_sub (es : List (Edge E)) (g h : Nat → Rat) (v : Nat) :
    flowIn es (fun u => g u - h u) v = flowIn es g v - flowIn es h v := by
  unfold flowIn
  rw [list_sum_sub]
  congr 2
  funext e
  rw [sub_div]

theorem flowIn_nonneg {es : List (Edge E)} {n : Nat} (hv : ∀ e ∈ es, e.Valid n) {g : Nat → Rat}
    (hg : ∀ u, 1 ≤ u → u ≤ n → 0 ≤ g u) (v : Nat) : 0 ≤ flowIn es g v := by
  unfold flowIn
  apply List.sum_nonneg
  intro x hx
  obtain ⟨e, he, rfl⟩ := List.mem_map.mp hx
  obtain ⟨a1, a2, _, _⟩ := hv e (List.mem_filter.mp he).1
  exact div_nonneg (hg _ (by omega) (by omega)) (by positivity)

/-- What one superstep does to one vertex. -/
theorem dprProg_vertex {es : List (Edge E)} {n : Nat} (hv : ∀ e ∈ es, e.Valid n) {P P' : Nat → DprV} {A A' : Nat → Bool}
    (hst : DprState es n P A) {c : Bool}
    (hs : StepRel ((dprProg E (3 / 10)).gp ()) dprMessage (fun msg _ _ => msg) false n es P A P' A' c) :
    (∀ v, 1 ≤ v → v ≤ n →
      (P' v = P v ∧ A' v = false ∧ flowIn es (dprPend P A) v = 0) ∨
      (P' v = dprApply (3 / 10) (flowIn es (dprPend P A) v) (P v) ∧ A' v = (P v).ne (P' v))) ∧
    (c = true ↔ ∀ v, 1 ≤ v → v ≤ n → A' v = false) := by
  obtain ⟨res, r1, r2, r3, r4⟩ := hs
  refine ⟨?_, ?_⟩
  · intro v v1 v2
    have e1 := r1 v v1 v2
    have e2 := r2 v v1 v2
    have e3 := r3 v v1 v2
    have hsum := dprMsgs_sum hv (A := A) hst.deg v
    cases hr : res v with
    | none =>
      have h0 : outMsgs dprMessage (fun msg (_ : E) (_ : DprV) => msg) es P A v = [] := e1.none_iff.mp hr
      rw [h0] at hsum
      rw [hr] at e2 e3
      exact Or.inl ⟨e2, e3, hsum.symm⟩
    | some x =>
      rw [hr] at e1 e2 e3
      have e1' : Reduces (fun a b => a + b) (outMsgs dprMessage (fun msg (_ : E) (_ : DprV) => msg) es P A v) (some x) := e1
      have hx := e1'.rat
      rw [hsum] at hx
      have e2' : P' v = dprApply (3 / 10) x (P v) := e2
      have e3' : A' v = (P v).ne (dprApply (3 / 10) x (P v)) := e3
      refine Or.inr ⟨by rw [e2', hx], by rw [e3', e2']⟩
  · rw [r4]
    constructor
    · intro h v v1 v2
      rw [r3 v v1 v2, h v v1 v2]; rfl
    · intro h v v1 v2
      have := h v v1 v2
      rw [r3 v v1 v2] at this
      simpa using this

/-- The three fields after `apply`. -/
theorem dprApply_spec {u : Rat} {v : DprV} (hu : 0 ≤ u) (hd : 0 ≤ v.delta) :
    let w := dprApply (3 / 10) u v
    w.deg = v.deg ∧ w.delta = dprSmall v + 7 / 10 * u ∧ 0 ≤ w.delta ∧
    (v.ne w = true ↔ dprEps < w.delta) ∧
    (dprEps < w.delta → w.rank = v.rank + w.delta ∧ dprSmall w = 0) ∧
    (¬ dprEps < w.delta → w.rank = v.rank ∧ dprSmall w = w.delta) := by
  intro w
  have hsm : 0 ≤ dprSmall v := by
    unfold dprSmall; split
    · exact le_refl _
    · exact hd
  have hd1 : dprSmall v + (1 - 3 / 10) * u = dprSmall v + 7 / 10 * u := by norm_num
  have hpos : 0 ≤ dprSmall v + 7 / 10 * u := by linarith
  have hb : dprBig (dprSmall v + 7 / 10 * u) = true ↔ dprEps < dprSmall v + 7 / 10 * u := by
    rw [dprBig_iff, abs_of_nonneg hpos]
  have hw : w = if dprBig (dprSmall v + 7 / 10 * u) then
      { v with delta := dprSmall v + 7 / 10 * u, rank := v.rank + (dprSmall v + 7 / 10 * u) }
      else { v with delta := dprSmall v + 7 / 10 * u } := by
    show dprApply (3 / 10) u v = _
    rw [← hd1]; rfl
  by_cases h : dprEps < dprSmall v + 7 / 10 * u
  · rw [if_pos (hb.mpr h)] at hw
    rw [hw]
    refine ⟨rfl, rfl, hpos, ?_, fun _ => ⟨rfl, ?_⟩, fun hn => absurd h hn⟩
    · refine ⟨fun _ => h, fun _ => ?_⟩
      unfold DprV.ne
      simp only [add_sub_cancel_left]
      exact hb.mpr h
    · unfold dprSmall
      exact if_pos (hb.mpr h)
  · rw [if_neg (fun hc => h (hb.mp hc))] at hw
    rw [hw]
    refine ⟨rfl, rfl, hpos, ?_, fun hc => absurd hc h, fun _ => ⟨rfl, ?_⟩⟩
    · refine ⟨fun hc => ?_, fun hc => absurd hc h⟩
      unfold DprV.ne at hc
      simp only [sub_self] at hc
      rw [dprBig_iff] at hc
      norm_num at hc
    · unfold dprSmall
      exact if_neg (fun hc => h (hb.mp hc))

theorem dprSmall_bounds {v : DprV} (h : 0 ≤ v.delta) : 0 ≤ dprSmall v ∧ dprSmall v ≤ dprEps := by
  unfold dprSmall
  by_cases hb : dprBig v.delta = true
  · rw [if_pos hb]; exact ⟨le_refl _, by norm_num⟩
  · rw [if_neg hb]
    rw [dprBig_iff, abs_of_nonneg h] at hb
    exact ⟨h, not_lt.mp hb⟩

theorem dprPend_nonneg {es : List (Edge E)} {n : Nat} {P : Nat → DprV} {A : Nat → Bool} (hst : DprState es n P A) :
    ∀ u, 1 ≤ u → u ≤ n → 0 ≤ dprPend P A u := by
  intro u u1 u2
  unfold dprPend
  split
  · exact hst.pos u u1 u2
  · exact le_refl _

/-- One superstep keeps the state. -/
theorem dprProg_step {es : List (Edge E)} {n : Nat} (hv : ∀ e ∈ es, e.Valid n) {P P' : Nat → DprV} {A A' : Nat → Bool}
    (hst : DprState es n P A) {c : Bool}
    (hs : StepRel ((dprProg E (3 / 10)).gp ()) dprMessage (fun msg _ _ => msg) false n es P A P' A' c) :
    DprState es n P' A' ∧ (c = true ↔ ∀ v, 1 ≤ v → v ≤ n → A' v = false) ∧
    (∀ v, 1 ≤ v → v ≤ n → dprPend P' A' v + dprSmall (P' v) = dprSmall (P v) + 7 / 10 * flowIn es (dprPend P A) v) := by
  obtain ⟨hvx, hc⟩ := dprProg_vertex hv hst hs
  have hfl : ∀ v, 0 ≤ flowIn es (dprPend P A) v := flowIn_nonneg hv (dprPend_nonneg hst)
  -- facts about every vertex
  have hfacts : ∀ v, 1 ≤ v → v ≤ n → (P' v).deg = (P v).deg ∧ 0 ≤ (P' v).delta ∧ (A' v = true → dprEps < (P' v).delta) ∧
      (P' v).rank - dprPend P' A' v = (P v).rank ∧
      dprPend P' A' v + dprSmall (P' v) = dprSmall (P v) + 7 / 10 * flowIn es (dprPend P A) v := by
    intro v v1 v2
    rcases hvx v v1 v2 with ⟨h1, h2, h3⟩ | ⟨h1, h2⟩
    · have hp : dprPend P' A' v = 0 := by unfold dprPend; rw [h2]; rfl
      rw [hp, h1, h2, h3]
      refine ⟨rfl, hst.pos v v1 v2, by simp, by ring, by ring⟩
    · obtain ⟨a1, a2, a3, a4, a5, a6⟩ := dprApply_spec (hfl v) (hst.pos v v1 v2)
      rw [← h1] at a1 a2 a3 a4 a5 a6
      rw [← h2] at a4
      refine ⟨a1, a3, a4.mp, ?_, ?_⟩
      · by_cases hb : dprEps < (P' v).delta
        · unfold dprPend
          rw [if_pos (a4.mpr hb), (a5 hb).1]; ring
        · unfold dprPend
          rw [if_neg (fun h => hb (a4.mp h)), (a6 hb).1]; ring
      · by_cases hb : dprEps < (P' v).delta
        · have hp : dprPend P' A' v = (P' v).delta := if_pos (a4.mpr hb)
          rw [hp, (a5 hb).2, a2]; ring
        · have hp : dprPend P' A' v = 0 := if_neg (fun h => hb (a4.mp h))
          rw [hp, (a6 hb).2, a2]; ring
  refine ⟨⟨?_, ?_, ?_, ?_⟩, hc, fun v v1 v2 => (hfacts v v1 v2).2.2.2.2⟩
  · intro v v1 v2
    rw [(hfacts v v1 v2).1, hst.deg v v1 v2]
  · intro v v1 v2; exact (hfacts v v1 v2).2.1
  · intro v v1 v2; exact (hfacts v v1 v2).2.2.1
  · intro v v1 v2
    obtain ⟨_, _, _, f4, f5⟩ := hfacts v v1 v2
    have h1 := flowIn_congr hv (g := fun u => (P' u).rank - dprPend P' A' u) (h := fun u => (P u).rank)
      (fun u u1 u2 => (hfacts u u1 u2).2.2.2.1) v
    rw [h1]
    have h2 := hst.eqn v v1 v2
    rw [flowIn_sub] at h2
    linarith

/-! ### Convergence -/

/-- Total delta still to be sent. -/
def dprTotal (n : Nat) (P : Nat → DprV) (A : Nat → Bool) : Rat := ∑ v ∈ Finset.Icc 1 n, dprPend P A v

/-- Total delta held back. -/
def dprHeld (n : Nat) (P : Nat → DprV) : Rat := ∑ v ∈ Finset.Icc 1 n, dprSmall (P v)

theorem flowIn_total {n : Nat} {es : List (Edge E)} (hv : ∀ e ∈ es, e.Valid n) {g : Nat → Rat}
    (hg : ∀ u, 1 ≤ u → u ≤ n → 0 ≤ g u) :
    ∑ v ∈ Finset.Icc 1 n, flowIn es g v ≤ ∑ u ∈ Finset.Icc 1 n, g u := by
  have h1 : ∀ v ∈ Finset.Icc 1 n, flowIn es g v = flowIn es (fun u => |g u|) v := by
    intro v _
    exact flowIn_congr hv (fun u u1 u2 => (abs_of_nonneg (hg u u1 u2)).symm) v
  have h2 : ∑ u ∈ Finset.Icc 1 n, g u = ∑ u ∈ Finset.Icc 1 n, |g u| := by
    apply Finset.sum_congr rfl
    intro u hu
    obtain ⟨u1, u2⟩ := Finset.mem_Icc.mp hu
    exact (abs_of_nonneg (hg u u1 u2)).symm
  rw [Finset.sum_congr rfl h1, h2]
  exact flow_le hv (g := fun u => |g u|) (fun _ => abs_nonneg _)

theorem dprHeld_bounds {es : List (Edge E)} {n : Nat} {P : Nat → DprV} {A : Nat → Bool} (hst : DprState es n P A) :
    0 ≤ dprHeld n P ∧ dprHeld n P ≤ n * dprEps := by
  constructor
  · apply Finset.sum_nonneg
    intro v hv
    obtain ⟨v1, v2⟩ := Finset.mem_Icc.mp hv
    exact (dprSmall_bounds (hst.pos v v1 v2)).1
  · have : ∑ v ∈ Finset.Icc 1 n, dprSmall (P v) ≤ ∑ _v ∈ Finset.Icc 1 n, dprEps := by
      apply Finset.sum_le_sum
      intro v hv
      obtain ⟨v1, v2⟩ := Finset.mem_Icc.mp hv
      exact (dprSmall_bounds (hst.pos v v1 v2)).2
    rw [Finset.sum_const, Nat.card_Icc, nsmul_eq_mul] at this
    simpa [dprHeld] using this

theorem dprTotal_step {es : List (Edge E)} {n : Nat} (hv : ∀ e ∈ es, e.Valid n) {P P' : Nat → DprV} {A A' : Nat → Bool}
    (hst : DprState es n P A)
    (h : ∀ v, 1 ≤ v → v ≤ n → dprPend P' A' v + dprSmall (P' v) = dprSmall (P v) + 7 / 10 * flowIn es (dprPend P A) v) :
    dprTotal n P' A' + dprHeld n P' ≤ dprHeld n P + 7 / 10 * dprTotal n P A := by
  unfold dprTotal dprHeld
  rw [← Finset.sum_add_distrib]
  have : ∑ v ∈ Finset.Icc 1 n, (dprPend P' A' v + dprSmall (P' v)) =
      ∑ v ∈ Finset.Icc 1 n, (dprSmall (P v) + 7 / 10 * flowIn es (dprPend P A) v) := by
    apply Finset.sum_congr rfl
    intro v hv
    obtain ⟨v1, v2⟩ := Finset.mem_Icc.mp hv
    exact h v v1 v2
  rw [this, Finset.sum_add_distrib, ← Finset.mul_sum]
  have h2 := flowIn_total hv (dprPend_nonneg hst)
  linarith

theorem dprTotal_big {es : List (Edge E)} {n : Nat} {P : Nat → DprV} {A : Nat → Bool} (hst : DprState es n P A)
    {v : Nat} (v1 : 1 ≤ v) (v2 : v ≤ n) (hA : A v = true) : dprEps < dprTotal n P A := by
  have h1 := hst.big v v1 v2 hA
  have h2 : dprPend P A v ≤ dprTotal n P A := by
    apply Finset.single_le_sum (f := fun v => dprPend P A v) _ (Finset.mem_Icc.mpr ⟨v1, v2⟩)
    intro u hu
    obtain ⟨u1, u2⟩ := Finset.mem_Icc.mp hu
    exact dprPend_nonneg hst u u1 u2
  have h3 : dprPend P A v = (P v).delta := if_pos hA
  linarith

/-- An approximate solution of the PageRank equation is near every exact one. -/
theorem near_pagerank {n : Nat} {es : List (Edge E)} (hv : ∀ e ∈ es, e.Valid n) {x y : Nat → Rat} {eps : Rat}
    (hx : ∀ v, 1 ≤ v → v ≤ n → |x v - prRhs es x v| ≤ eps) (hy : IsPageRank es n y) :
    ∑ v ∈ Finset.Icc 1 n, |x v - y v| ≤ 10 / 3 * (n * eps) := by
  have h1 : ∀ v ∈ Finset.Icc 1 n, |x v - y v| ≤ eps + 7 / 10 * flowIn es (fun u => |x u - y u|) v := by
    intro v hv'
    obtain ⟨v1, v2⟩ := Finset.mem_Icc.mp hv'
    have e1 := hx v v1 v2
    have e2 := hy v v1 v2
    have e3 : prRhs es x v - prRhs es y v = 7 / 10 * flowIn es (fun u => x u - y u) v := by
      unfold prRhs; rw [flowIn_sub]; ring
    have e4 : |flowIn es (fun u => x u - y u) v| ≤ flowIn es (fun u => |x u - y u|) v := by
      unfold flowIn
      refine le_trans (abs_list_sum _ _) (le_of_eq ?_)
      congr 2
      funext e
      rw [abs_div, abs_of_nonneg (by positivity : (0 : Rat) ≤ (outDegree es e.src.toNat : Rat))]
    have e5 : x v - y v = (x v - prRhs es x v) + 7 / 10 * flowIn es (fun u => x u - y u) v := by
      rw [← e3, e2.symm]; ring
    rw [e5]
    refine le_trans (abs_add_le _ _) ?_
    rw [abs_mul, abs_of_pos (by norm_num : (0 : Rat) < 7 / 10)]
    linarith
  have h2 := Finset.sum_le_sum h1
  rw [Finset.sum_add_distrib, ← Finset.mul_sum, Finset.sum_const, Nat.card_Icc, nsmul_eq_mul] at h2
  have h3 := flowIn_total hv (g := fun u => |x u - y u|) (fun _ _ _ => abs_nonneg _)
  have h4 : ((n + 1 - 1 : Nat) : Rat) = n := by simp
  rw [h4] at h2
  linarith

/-! ### The exact solution -/

/-- Rank vectors as functions on the vertex numbers, 0 outside. -/
def extendVec (n : Nat) (x : Fin n → Rat) (u : Nat) : Rat := if h : 1 ≤ u ∧ u ≤ n then x ⟨u - 1, by omega⟩ else 0

theorem flowIn_add (es : List (Edge E)) (g h : Nat → Rat) (v : Nat) :
    flowIn es (fun u => g u + h u) v = flowIn es g v + flowIn es h v := by
  have e : (fun u => g u + h u) = fun u => g u - (-h u) := by funext u; ring
  have e2 : flowIn es (fun u => -h u) v = - flowIn es h v := by
    have := flowIn_sub es (fun _ => 0) h v
    simp only [zero_sub] at this
    rw [this]
    have h0 : flowIn es (fun _ => (0 : Rat)) v = 0 := by
      unfold flowIn
      rw [sum_const_map _ (b := 0) (fun e _ => zero_div _)]; simp
    rw [h0]; ring
  rw [e, flowIn_sub, e2]; ring

theorem flowIn_smul (es : List (Edge E)) (a : Rat) (g : Nat → Rat) (v : Nat) :
    flowIn es (fun u => a * g u) v = a * flowIn es g v := by
  unfold flowIn
  rw [← List.sum_map_mul_left]
  congr 2
  funext e
  rw [mul_div_assoc]

/-- `x ↦ x - 0.7 * flow x` as a linear map. -/
def prMap (es : List (Edge E)) (n : Nat) : (Fin n → Rat) →ₗ[Rat] (Fin n → Rat) where
  toFun x := fun i => x i - 7 / 10 * flowIn es (extendVec n x) (i.val + 1)
  map_add' := by
    intro x y
    funext i
    have : extendVec n (x + y) = fun u => extendVec n x u + extendVec n y u := by
      funext u; unfold extendVec; split <;> simp
    simp only [Pi.add_apply]
    rw [this, flowIn_add]; ring
  map_smul' := by
    intro a x
    funext i
    have : extendVec n (a • x) = fun u => a * extendVec n x u := by
      funext u; unfold extendVec; split <;> simp
    simp only [Pi.smul_apply, smul_eq_mul, RingHom.id_apply]
    rw [this, flowIn_smul]; ring

/-- The PageRank equation has a solution. -/
theorem pagerank_exists {n : Nat} {es : List (Edge E)} (hv : ∀ e ∈ es, e.Valid n) : ∃ y, IsPageRank es n y := by
  have hinj : Function.Injective (prMap es n) := by
    rw [injective_iff_map_eq_zero]
    intro x hx
    have h1 : ∀ v ∈ Finset.Icc 1 n, |extendVec n x v| ≤ 7 / 10 * flowIn es (fun u => |extendVec n x u|) v := by
      intro v hv'
      obtain ⟨v1, v2⟩ := Finset.mem_Icc.mp hv'
      have := congrFun hx ⟨v - 1, by omega⟩
      simp only [prMap, LinearMap.coe_mk, AddHom.coe_mk, Pi.zero_apply] at this
      rw [show v - 1 + 1 = v by omega] at this
      have e1 : extendVec n x v = x ⟨v - 1, by omega⟩ := dif_pos ⟨v1, v2⟩
      have e2 : extendVec n x v = 7 / 10 * flowIn es (extendVec n x) v := by rw [e1]; linarith
      have e4 : |flowIn es (extendVec n x) v| ≤ flowIn es (fun u => |extendVec n x u|) v := by
        unfold flowIn
        refine le_trans (abs_list_sum _ _) (le_of_eq ?_)
        congr 2
        funext e
        rw [abs_div, abs_of_nonneg (by positivity : (0 : Rat) ≤ (outDegree es e.src.toNat : Rat))]
      have e5 : |extendVec n x v| = 7 / 10 * |flowIn es (extendVec n x) v| := by
        conv_lhs => rw [e2]
        rw [abs_mul, abs_of_pos (by norm_num : (0 : Rat) < 7 / 10)]
      linarith
    have h2 := Finset.sum_le_sum h1
    rw [← Finset.mul_sum] at h2
    have h3 := flowIn_total hv (g := fun u => |extendVec n x u|) (fun _ _ _ => abs_nonneg _)
    have h4 : ∑ v ∈ Finset.Icc 1 n, |extendVec n x v| ≤ 0 := by linarith
    funext i
    have h5 : |extendVec n x (i.val + 1)| ≤ ∑ v ∈ Finset.Icc 1 n, |extendVec n x v| :=
      Finset.single_le_sum (f := fun v => |extendVec n x v|) (fun _ _ => abs_nonneg _)
        (Finset.mem_Icc.mpr ⟨by omega, by omega⟩)
    have h6 : |extendVec n x (i.val + 1)| = 0 := le_antisymm (le_trans h5 h4) (abs_nonneg _)
    have h7 : extendVec n x (i.val + 1) = x i := dif_pos ⟨by omega, by omega⟩
    rw [← h7]
    exact abs_eq_zero.mp h6
  have hsurj := LinearMap.injective_iff_surjective.mp hinj
  obtain ⟨y, hy⟩ := hsurj (fun _ => 3 / 10)
  refine ⟨extendVec n y, ?_⟩
  intro v v1 v2
  have := congrFun hy ⟨v - 1, by omega⟩
  simp only [prMap, LinearMap.coe_mk, AddHom.coe_mk] at this
  rw [show v - 1 + 1 = v by omega] at this
  have e1 : extendVec n y v = y ⟨v - 1, by omega⟩ := dif_pos ⟨v1, v2⟩
  unfold prRhs
  rw [e1]
  linarith

end GraphMat

import Verif.Model.PageRank
import Verif.Spec.PageRank
import Verif.Lemmas.TopSort
import Mathlib.Algebra.Order.Field.Rat
import Mathlib.Algebra.Order.BigOperators.Group.Finset
import Mathlib.Algebra.BigOperators.Ring.Finset
import Mathlib.Algebra.BigOperators.Intervals
import Mathlib.Tactic.Linarith
import Mathlib.Tactic.Ring
import Mathlib.Tactic.NormNum
import Mathlib.Tactic.Positivity

namespace GraphMat

variable {E : Type}

/-! ### Sums of messages -/

theorem RTree.eval_add (t : RTree Rat) : t.eval (fun a b => a + b) = t.leaves.sum := by
  induction t with
  | leaf u => simp [RTree.eval, RTree.leaves]
  | node l r ihl ihr => simp [RTree.eval, RTree.leaves, ihl, ihr]

theorem Reduces.rat {l : List Rat} {x : Rat} (h : Reduces (fun a b => a + b) l (some x)) : x = l.sum := by
  rcases h with ⟨_, h⟩ | ⟨t, h1, h2⟩
  · cases h
  · injection h2 with h2
    rw [h2, RTree.eval_add]
    exact h1.sum_eq

theorem inMsgs_length_all {V T U : Type} (msg : V → T) (proc : T → E → V → U) (es : List (Edge E)) (P : Nat → V) (d : Nat) :
    (inMsgs msg proc es P (fun _ => true) d).length = outDegree es d := by
  unfold inMsgs outDegree
  induction es with
  | nil => rfl
  | cons a l ih =>
    rw [List.countP_cons, List.filterMap_cons]
    simp only [and_true] at ih ⊢
    by_cases h : a.src = (d : Int)
    · simp [h, ih]
    · simp [h, ih]

theorem outMsgs_all {V T U : Type} (msg : V → T) (proc : T → E → V → U) {es : List (Edge E)} {A : Nat → Bool}
    (hA : ∀ e ∈ es, A e.src.toNat = true) (P : Nat → V) (d : Nat) :
    outMsgs msg proc es P A d =
      (es.filter (fun e => decide (e.dst = (d : Int)))).map (fun e => proc (msg (P e.src.toNat)) e.val (P d)) := by
  unfold outMsgs
  induction es with
  | nil => rfl
  | cons a l ih =>
    rw [List.filterMap_cons, List.filter_cons, ih (fun e he => hA e (List.mem_cons_of_mem _ he)),
      hA a (List.mem_cons_self ..)]
    by_cases h : a.dst = (d : Int)
    · simp [h]
    · simp [h]

/-! ### The degree pass -/

theorem degreeProg_pure : Program.Pure (degreeProg E) (fun _ _ => 1) (fun _ msg _ _ => some msg) := by
  intro s
  exact ⟨fun _ _ => rfl, fun _ _ _ _ => rfl, fun _ _ _ _ _ => rfl⟩

theorem degreeProg_step {es : List (Edge E)} {n : Nat} (hdeg : ∀ v, outDegree es v ≤ IMAX) {P P' : Nat → PrV}
    {A' : Nat → Bool} {c : Bool} {act : Bool}
    (hs : StepRel ((degreeProg E).gp ()) (fun _ => 1) (fun msg _ _ => some msg) act n es P (fun _ => true) P' A' c) :
    ∀ v, 1 ≤ v → v ≤ n → P' v = if outDegree es v = 0 then P v else { P v with deg := some (outDegree es v : Int) } := by
  obtain ⟨res, r1, r2, _, _⟩ := hs
  intro v v1 v2
  have e1 := r1 v v1 v2
  have e2 := r2 v v1 v2
  have hlen := inMsgs_length_all (fun _ : PrV => (1 : Int)) (fun msg (_ : E) _ => some msg) es P v
  cases hr : res v with
  | none =>
    have h0 : inMsgs (fun _ : PrV => (1 : Int)) (fun msg (_ : E) _ => some msg) es P (fun _ => true) v = [] :=
      e1.none_iff.mp hr
    rw [h0, List.length_nil] at hlen
    rw [if_pos hlen.symm, e2, hr]
    rfl
  | some x =>
    rw [hr] at e1
    have e1' : Reduces addInt (inMsgs (fun _ : PrV => (1 : Int)) (fun msg (_ : E) _ => some msg) es P (fun _ => true) v)
      (some x) := e1
    obtain ⟨o1, o2⟩ := e1'.ones (by
      intro u hu
      simp only [inMsgs, List.mem_filterMap] at hu
      obtain ⟨e, _, he⟩ := hu
      split at he
      · injection he with he; exact he.symm
      · cases he) (by rw [hlen]; exact hdeg v)
    rw [hlen] at o1 o2
    rw [if_neg (by omega), e2, hr, o1]
    rfl

/-! ### One iteration -/

theorem prProg_pure (alpha : Rat) : Program.Pure (prProg E alpha) (fun _ => prMessage) (fun _ msg _ _ => msg) := by
  intro s
  exact ⟨fun _ _ => rfl, fun _ _ _ _ => rfl, fun _ _ _ _ _ => rfl⟩

theorem PrV.ne_iff {a b : PrV} : a.ne b = true ↔ 1 / 100000 < |b.rank - a.rank| := by
  unfold PrV.ne
  rw [decide_eq_true_iff]
  by_cases h : b.rank - a.rank < 0
  · rw [if_pos h, abs_of_neg h]
  · rw [if_neg h, abs_of_nonneg (not_lt.mp h)]

theorem outDegree_pos {es : List (Edge E)} {e : Edge E} (he : e ∈ es) (h : 0 ≤ e.src) : 0 < outDegree es e.src.toNat := by
  unfold outDegree
  rw [List.countP_pos_iff]
  exact ⟨e, he, by simp [h]⟩

theorem inDegree_filter (es : List (Edge E)) (v : Nat) :
    inDegree es v = (es.filter (fun e => decide (e.dst = (v : Int)))).length := List.countP_eq_length_filter

theorem prProg_step {es : List (Edge E)} {n : Nat} (hv : ∀ e ∈ es, e.Valid n) {alpha : Rat} {P P' : Nat → PrV}
    (hP : ∀ v, 1 ≤ v → v ≤ n → (P v).deg = some (outDegree es v : Int))
    {A A' : Nat → Bool} (hA : ∀ v, 1 ≤ v → v ≤ n → A v = true) {c : Bool} {act : Bool}
    (hs : StepRel ((prProg E alpha).gp ()) prMessage (fun msg _ _ => msg) act n es P A P' A' c) :
    (∀ v, 1 ≤ v → v ≤ n → (P' v).deg = (P v).deg ∧ (P' v).rank = prStep alpha es (fun u => (P u).rank) v) ∧
    (c = true ↔ ∀ v, 1 ≤ v → v ≤ n → |(P' v).rank - (P v).rank| ≤ 1 / 100000) ∧
    (act = true → ∀ v, 1 ≤ v → v ≤ n → A' v = true) := by
  obtain ⟨res, r1, r2, r3, r4⟩ := hs
  have hA' : ∀ e ∈ es, A e.src.toNat = true := by
    intro e he
    obtain ⟨a1, a2, _, _⟩ := hv e he
    exact hA _ (by omega) (by omega)
  refine ⟨?_, ?_, ?_⟩
  · intro v v1 v2
    have e1 := r1 v v1 v2
    have e2 := r2 v v1 v2
    have hmsgs := outMsgs_all prMessage (fun msg (_ : E) (_ : PrV) => msg) hA' P v
    unfold prStep
    rw [inDegree_filter]
    cases hr : res v with
    | none =>
      have h0 : outMsgs prMessage (fun msg (_ : E) (_ : PrV) => msg) es P A v = [] := e1.none_iff.mp hr
      rw [h0] at hmsgs
      rw [hr] at e2
      have e2' : P' v = P v := e2
      have hnil := List.map_eq_nil_iff.mp hmsgs.symm
      rw [hnil, e2']
      simp
    | some x =>
      rw [hr] at e1 e2
      have e1' : Reduces (fun a b => a + b) (outMsgs prMessage (fun msg (_ : E) (_ : PrV) => msg) es P A v) (some x) := e1
      have hx := e1'.rat
      have hne : outMsgs prMessage (fun msg (_ : E) (_ : PrV) => msg) es P A v ≠ [] := by
        intro h0
        have : res v = none := (r1 v v1 v2).none_iff.mpr h0
        rw [hr] at this; cases this
      rw [hmsgs] at hx hne
      have e2' : P' v = { P v with rank := alpha + (1 - alpha) * x } := e2
      rw [e2']
      refine ⟨rfl, ?_⟩
      rw [if_neg (fun h => hne (by rw [List.length_eq_zero_iff.mp h]; rfl))]
      show alpha + (1 - alpha) * x = _
      rw [hx]
      congr 3
      apply List.map_congr_left
      intro e he
      obtain ⟨he1, _⟩ := List.mem_filter.mp he
      obtain ⟨a1, a2, _, _⟩ := hv e he1
      have hd := hP e.src.toNat (by omega) (by omega)
      have hp := outDegree_pos he1 (by omega)
      unfold prMessage
      rw [hd]
      simp only [Option.getD_some]
      rw [if_neg (by omega)]
      norm_cast
  · rw [r4]
    have hg : ∀ v, 1 ≤ v → v ≤ n → (gotChanged ((prProg E alpha).gp ()).apply ((prProg E alpha).gp ()).ne (P v) (res v) = false ↔
        |(P' v).rank - (P v).rank| ≤ 1 / 100000) := by
      intro v v1 v2
      have e2 := r2 v v1 v2
      cases hr : res v with
      | none =>
        rw [hr] at e2
        have e2' : P' v = P v := e2
        rw [e2']
        simp [gotChanged]
      | some x =>
        rw [hr] at e2
        have hgc : gotChanged ((prProg E alpha).gp ()).apply ((prProg E alpha).gp ()).ne (P v) (some x) = (P v).ne (P' v) := by
          rw [e2]; rfl
        rw [hgc, ← Bool.not_eq_true, PrV.ne_iff, not_lt]
    constructor
    · intro hq v v1 v2; exact (hg v v1 v2).mp (hq v v1 v2)
    · intro hq v v1 v2; exact (hg v v1 v2).mpr (hq v v1 v2)
  · intro ha v v1 v2
    rw [r3 v v1 v2, ha]; rfl

theorem prStep_congr {es : List (Edge E)} {n : Nat} (hv : ∀ e ∈ es, e.Valid n) (alpha : Rat) {x y : Nat → Rat}
    (h : ∀ v, 1 ≤ v → v ≤ n → x v = y v) {v : Nat} (h1 : 1 ≤ v) (h2 : v ≤ n) : prStep alpha es x v = prStep alpha es y v := by
  unfold prStep
  rw [h v h1 h2]
  have : (es.filter (fun e => decide (e.dst = (v : Int)))).map (fun e => x e.src.toNat / (outDegree es e.src.toNat : Rat)) =
      (es.filter (fun e => decide (e.dst = (v : Int)))).map (fun e => y e.src.toNat / (outDegree es e.src.toNat : Rat)) := by
    apply List.map_congr_left
    intro e he
    obtain ⟨a1, a2, _, _⟩ := hv e (List.mem_filter.mp he).1
    rw [h e.src.toNat (by omega) (by omega)]
  rw [this]

/-! ### Convergence -/

theorem sum_by_key {n : Nat} (key : Edge E → Int) (f : Edge E → Rat) (es : List (Edge E))
    (h : ∀ e ∈ es, 1 ≤ key e ∧ key e ≤ n) :
    ∑ v ∈ Finset.Icc 1 n, ((es.filter (fun e => decide (key e = (v : Int)))).map f).sum = (es.map f).sum := by
  induction es with
  | nil => simp
  | cons a l ih =>
    obtain ⟨k1, k2⟩ := h a (List.mem_cons_self ..)
    rw [List.map_cons, List.sum_cons, ← ih (fun e he => h e (List.mem_cons_of_mem _ he))]
    have : ∀ v ∈ Finset.Icc 1 n, (((a :: l).filter (fun e => decide (key e = (v : Int)))).map f).sum =
        (if v = (key a).toNat then f a else 0) + ((l.filter (fun e => decide (key e = (v : Int)))).map f).sum := by
      intro v _
      rw [List.filter_cons]
      by_cases hk : key a = (v : Int)
      · have : v = (key a).toNat := by omega
        simp [hk]
      · have : ¬ v = (key a).toNat := by omega
        simp [hk, this]
    rw [Finset.sum_congr rfl this, Finset.sum_add_distrib, Finset.sum_ite_eq']
    rw [if_pos (Finset.mem_Icc.mpr ⟨by omega, by omega⟩)]

theorem sum_const_map (l : List (Edge E)) {f : Edge E → Rat} {b : Rat} (h : ∀ e ∈ l, f e = b) :
    (l.map f).sum = l.length * b := by
  induction l with
  | nil => simp
  | cons a l ih =>
    rw [List.map_cons, List.sum_cons, ih (fun e he => h e (List.mem_cons_of_mem _ he)), h a (List.mem_cons_self ..)]
    push_cast [List.length_cons]
    ring

theorem abs_list_sum (l : List (Edge E)) (f : Edge E → Rat) : |(l.map f).sum| ≤ (l.map (fun e => |f e|)).sum := by
  induction l with
  | nil => simp
  | cons a l ih =>
    simp only [List.map_cons, List.sum_cons]
    exact le_trans (abs_add_le _ _) (by linarith)

theorem list_sum_sub (l : List (Edge E)) (f g : Edge E → Rat) :
    (l.map f).sum - (l.map g).sum = (l.map (fun e => f e - g e)).sum := by
  induction l with
  | nil => simp
  | cons a l ih => simp only [List.map_cons, List.sum_cons]; linarith

/-- What leaves the vertices is at most what they have. -/
theorem flow_le {n : Nat} {es : List (Edge E)} (hv : ∀ e ∈ es, e.Valid n) {g : Nat → Rat} (hg : ∀ v, 0 ≤ g v) :
    ∑ v ∈ Finset.Icc 1 n, ((es.filter (fun e => decide (e.dst = (v : Int)))).map
      (fun e => g e.src.toNat / (outDegree es e.src.toNat : Rat))).sum ≤ ∑ u ∈ Finset.Icc 1 n, g u := by
  rw [sum_by_key (fun e => e.dst) _ es (fun e he => ⟨(hv e he).2.2.1, (hv e he).2.2.2⟩),
    ← sum_by_key (fun e => e.src) _ es (fun e he => ⟨(hv e he).1, (hv e he).2.1⟩)]
  apply Finset.sum_le_sum
  intro u _
  rw [sum_const_map _ (b := g u / (outDegree es u : Rat))]
  · have : (es.filter (fun e => decide (e.src = (u : Int)))).length = outDegree es u := List.countP_eq_length_filter.symm
    rw [this]
    by_cases h0 : outDegree es u = 0
    · rw [h0]; simpa using hg u
    · rw [mul_div_cancel₀]
      exact_mod_cast h0
  · intro e he
    have := (List.mem_filter.mp he).2
    rw [decide_eq_true_iff] at this
    rw [this, Int.toNat_natCast]

/-- The step brings any two rank vectors closer, at a vertex with in-edges. -/
theorem prStep_diff {es : List (Edge E)} (x y : Nat → Rat) {v : Nat} (h : inDegree es v ≠ 0) :
    |prStep (3 / 10) es x v - prStep (3 / 10) es y v| ≤ 7 / 10 *
      ((es.filter (fun e => decide (e.dst = (v : Int)))).map
        (fun e => |x e.src.toNat - y e.src.toNat| / (outDegree es e.src.toNat : Rat))).sum := by
  unfold prStep
  rw [if_neg h, if_neg h]
  have e1 : ∀ a b : Rat, (3 / 10 + (1 - 3 / 10) * a) - (3 / 10 + (1 - 3 / 10) * b) = 7 / 10 * (a - b) := by
    intro a b; ring
  rw [e1, list_sum_sub, abs_mul, abs_of_pos (by norm_num : (0 : Rat) < 7 / 10)]
  have h2 := abs_list_sum (es.filter (fun e => decide (e.dst = (v : Int))))
    (fun e => x e.src.toNat / (outDegree es e.src.toNat : Rat) - y e.src.toNat / (outDegree es e.src.toNat : Rat))
  have e3 : (fun e : Edge E => |x e.src.toNat / (outDegree es e.src.toNat : Rat) - y e.src.toNat / (outDegree es e.src.toNat : Rat)|) =
      fun e => |x e.src.toNat - y e.src.toNat| / (outDegree es e.src.toNat : Rat) := by
    funext e
    rw [← sub_div, abs_div, abs_of_nonneg (by positivity : (0 : Rat) ≤ (outDegree es e.src.toNat : Rat))]
  rw [e3] at h2
  linarith

/-- Total change in iteration `k`. -/
def prChange (es : List (Edge E)) (n k : Nat) : Rat := ∑ v ∈ Finset.Icc 1 n, |prIter es (k + 1) v - prIter es k v|

theorem edges_sum_nonneg {es : List (Edge E)} {g : Nat → Rat} (hg : ∀ v, 0 ≤ g v) (v : Nat) :
    0 ≤ ((es.filter (fun e => decide (e.dst = (v : Int)))).map
      (fun e => g e.src.toNat / (outDegree es e.src.toNat : Rat))).sum := by
  apply List.sum_nonneg
  intro x hx
  obtain ⟨e, _, rfl⟩ := List.mem_map.mp hx
  exact div_nonneg (hg _) (by positivity)

theorem prChange_zero {n : Nat} {es : List (Edge E)} (hv : ∀ e ∈ es, e.Valid n) : prChange es n 0 ≤ 21 / 100 * n := by
  have hstep : ∀ v ∈ Finset.Icc 1 n, |prIter es 1 v - prIter es 0 v| ≤ 7 / 10 *
      ((es.filter (fun e => decide (e.dst = (v : Int)))).map
        (fun e => (fun _ => (3 / 10 : Rat)) e.src.toNat / (outDegree es e.src.toNat : Rat))).sum := by
    intro v _
    by_cases h0 : inDegree es v = 0
    · have : prIter es 1 v = prIter es 0 v := by
        show prStep _ _ _ v = _
        unfold prStep; rw [if_pos h0]
      rw [this, sub_self, abs_zero]
      exact mul_nonneg (by norm_num) (edges_sum_nonneg (g := fun _ => (3 / 10 : Rat)) (fun _ => by norm_num) v)
    · have h1 := prStep_diff (es := es) (fun _ => (3 / 10 : Rat)) (fun _ => 0) h0
      have h2 : prStep (3 / 10) es (fun _ => 0) v = 3 / 10 := by
        unfold prStep
        rw [if_neg h0]
        have : ((es.filter (fun e => decide (e.dst = (v : Int)))).map
          (fun e => (0 : Rat) / (outDegree es e.src.toNat : Rat))).sum = 0 := by
          rw [sum_const_map _ (b := 0) (fun e _ => zero_div _)]; simp
        rw [this]; ring
      rw [h2] at h1
      simp only [sub_zero] at h1
      rw [abs_of_pos (by norm_num : (0 : Rat) < 3 / 10)] at h1
      exact h1
  have h1 := Finset.sum_le_sum hstep
  rw [← Finset.mul_sum] at h1
  have h2 := flow_le hv (g := fun _ => (3 / 10 : Rat)) (fun _ => by norm_num)
  simp only [Finset.sum_const, Nat.card_Icc, nsmul_eq_mul] at h2
  have h3 : ((n + 1 - 1 : Nat) : Rat) = n := by simp
  rw [h3] at h2
  unfold prChange
  linarith

theorem prChange_succ {n : Nat} {es : List (Edge E)} (hv : ∀ e ∈ es, e.Valid n) (k : Nat) :
    prChange es n (k + 1) ≤ 7 / 10 * prChange es n k := by
  have hstep : ∀ v ∈ Finset.Icc 1 n, |prIter es (k + 2) v - prIter es (k + 1) v| ≤ 7 / 10 *
      ((es.filter (fun e => decide (e.dst = (v : Int)))).map
        (fun e => (fun u => |prIter es (k + 1) u - prIter es k u|) e.src.toNat / (outDegree es e.src.toNat : Rat))).sum := by
    intro v _
    by_cases h0 : inDegree es v = 0
    · have : prIter es (k + 2) v = prIter es (k + 1) v := by
        show prStep _ _ _ v = _
        unfold prStep; rw [if_pos h0]
      rw [this, sub_self, abs_zero]
      exact mul_nonneg (by norm_num) (edges_sum_nonneg (g := fun u => |prIter es (k + 1) u - prIter es k u|) (fun _ => abs_nonneg _) v)
    · exact prStep_diff (es := es) (prIter es (k + 1)) (prIter es k) h0
  have h1 := Finset.sum_le_sum hstep
  rw [← Finset.mul_sum] at h1
  have h2 := flow_le hv (g := fun u => |prIter es (k + 1) u - prIter es k u|) (fun _ => abs_nonneg _)
  unfold prChange
  exact le_trans h1 (mul_le_mul_of_nonneg_left h2 (by norm_num))

theorem prChange_le {n : Nat} {es : List (Edge E)} (hv : ∀ e ∈ es, e.Valid n) (k : Nat) :
    prChange es n k ≤ (7 / 10) ^ k * (21 / 100 * n) := by
  induction k with
  | zero => simpa using prChange_zero hv
  | succ k ih =>
    have := prChange_succ hv k
    rw [pow_succ]
    linarith

theorem prIter_change_le {n : Nat} {es : List (Edge E)} (hv : ∀ e ∈ es, e.Valid n) (k : Nat) {v : Nat} (h1 : 1 ≤ v) (h2 : v ≤ n) :
    |prIter es (k + 1) v - prIter es k v| ≤ (7 / 10) ^ k * (21 / 100 * n) := by
  refine le_trans ?_ (prChange_le hv k)
  exact Finset.single_le_sum (f := fun v => |prIter es (k + 1) v - prIter es k v|) (fun _ _ => abs_nonneg _)
    (Finset.mem_Icc.mpr ⟨h1, h2⟩)

/-- Whatever the graph, the 92nd iteration changes no rank by more than 0.00001. -/
theorem prIter_quiet {n : Nat} {es : List (Edge E)} (hv : ∀ e ∈ es, e.Valid n) (hn : n ≤ IMAX) {v : Nat} (h1 : 1 ≤ v)
    (h2 : v ≤ n) : |prIter es 92 v - prIter es 91 v| ≤ 1 / 100000 := by
  refine le_trans (prIter_change_le hv 91 h1 h2) ?_
  have hn' : (n : Rat) ≤ 2147483647 := by unfold IMAX at hn; exact_mod_cast hn
  have : (7 / 10 : Rat) ^ 91 * (21 / 100 * 2147483647) ≤ 1 / 100000 := by norm_num
  refine le_trans ?_ this
  apply mul_le_mul_of_nonneg_left _ (by positivity)
  linarith

end GraphMat

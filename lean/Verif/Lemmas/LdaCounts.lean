import Verif.Lemmas.Lda
import Mathlib.Algebra.BigOperators.Field

namespace GraphMat

variable {K : Nat}

theorem gather_cons (e : Edge Int) (es : List (Edge Int)) (q : Edge Int → Rat) (v : Nat) :
    gather (e :: es) q v = (if v = e.dst.toNat ∧ 0 ≤ e.dst then q e * e.val else 0) +
      (if v = e.src.toNat ∧ 0 ≤ e.src then q e * e.val else 0) + gather es q v := by
  have h1 : e.dst = (v : Int) ↔ (v = e.dst.toNat ∧ 0 ≤ e.dst) := by omega
  have h2 : e.src = (v : Int) ↔ (v = e.src.toNat ∧ 0 ≤ e.src) := by omega
  unfold gather
  rw [List.filter_cons, List.filter_cons]
  simp only [h1, h2, decide_eq_true_iff]
  by_cases a : v = e.dst.toNat ∧ 0 ≤ e.dst
  · by_cases b : v = e.src.toNat ∧ 0 ≤ e.src
    · simp only [if_pos a, if_pos b, List.map_cons, List.sum_cons]; ring
    · simp only [if_pos a, if_neg b, List.map_cons, List.sum_cons]; ring
  · by_cases b : v = e.src.toNat ∧ 0 ≤ e.src
    · simp only [if_neg a, if_pos b, List.map_cons, List.sum_cons]; ring
    · simp only [if_neg a, if_neg b]; ring

theorem gather_nil (q : Edge Int → Rat) (v : Nat) : gather [] q v = 0 := by simp [gather]

theorem sum_pick (a b u : Nat) (r : Rat) : (∑ v ∈ Finset.Icc a b, if v = u then r else 0) = if a ≤ u ∧ u ≤ b then r else 0 := by
  rw [Finset.sum_ite_eq']
  simp only [Finset.mem_Icc]

/-- Each edge has one end among the words. -/
theorem sum_gather_words {n ndoc : Nat} {es : List (Edge Int)} (hv : ∀ e ∈ es, e.Valid n) (hj : ∀ e ∈ es, e.Joins ndoc)
    (q : Edge Int → Rat) : ∑ v ∈ Finset.Icc (ndoc + 1) n, gather es q v = (es.map (fun e => q e * e.val)).sum := by
  induction es with
  | nil => simp [gather_nil]
  | cons e es ih =>
    obtain ⟨b1, b2, b3, b4⟩ := hv e (List.mem_cons_self ..)
    have c1 : 0 ≤ e.dst := by omega
    have c2 : 0 ≤ e.src := by omega
    simp only [gather_cons, c1, c2, and_true]
    rw [Finset.sum_add_distrib, Finset.sum_add_distrib, ih (fun e he => hv e (List.mem_cons_of_mem _ he))
      (fun e he => hj e (List.mem_cons_of_mem _ he)), sum_pick, sum_pick, List.map_cons, List.sum_cons]
    congr 1
    rcases hj e (List.mem_cons_self ..) with ⟨a1, a2⟩ | ⟨a1, a2⟩
    · rw [if_pos (by omega), if_neg (by omega), add_zero]
    · rw [if_neg (by omega), if_pos (by omega), zero_add]

/-- Each edge has one end among the documents. -/
theorem sum_gather_docs {n ndoc : Nat} {es : List (Edge Int)} (hv : ∀ e ∈ es, e.Valid n) (hj : ∀ e ∈ es, e.Joins ndoc)
    (q : Edge Int → Rat) : ∑ v ∈ Finset.Icc 1 ndoc, gather es q v = (es.map (fun e => q e * e.val)).sum := by
  induction es with
  | nil => simp [gather_nil]
  | cons e es ih =>
    obtain ⟨b1, b2, b3, b4⟩ := hv e (List.mem_cons_self ..)
    have c1 : 0 ≤ e.dst := by omega
    have c2 : 0 ≤ e.src := by omega
    simp only [gather_cons, c1, c2, and_true]
    rw [Finset.sum_add_distrib, Finset.sum_add_distrib, ih (fun e he => hv e (List.mem_cons_of_mem _ he))
      (fun e he => hj e (List.mem_cons_of_mem _ he)), sum_pick, sum_pick, List.map_cons, List.sum_cons]
    congr 1
    rcases hj e (List.mem_cons_self ..) with ⟨a1, a2⟩ | ⟨a1, a2⟩
    · rw [if_neg (by omega), if_pos (by omega), zero_add]
    · rw [if_pos (by omega), if_neg (by omega), add_zero]

theorem gather_not_rated {es : List (Edge Int)} {q : Edge Int → Rat} {v : Nat} (h : ¬ Rated es v) : gather es q v = 0 := by
  rw [rated_iff, not_or, not_not, not_not] at h
  unfold gather
  rw [h.1, h.2]
  simp

theorem list_sum_nonneg {E : Type} (l : List E) (f : E → Rat) (h : ∀ e ∈ l, 0 ≤ f e) : 0 ≤ (l.map f).sum := by
  induction l with
  | nil => simp
  | cons a l ih =>
    rw [List.map_cons, List.sum_cons]
    exact add_nonneg (h a (List.mem_cons_self ..)) (ih (fun e he => h e (List.mem_cons_of_mem _ he)))

theorem gather_nonneg {es : List (Edge Int)} {q : Edge Int → Rat} (h : ∀ e ∈ es, 0 ≤ q e * e.val) (v : Nat) :
    0 ≤ gather es q v := by
  unfold gather
  exact add_nonneg (list_sum_nonneg _ _ (fun e he => h e (List.mem_filter.mp he).1))
    (list_sum_nonneg _ _ (fun e he => h e (List.mem_filter.mp he).1))

theorem list_sum_swap {E : Type} (l : List E) (f : E → Fin K → Rat) :
    ∑ i, (l.map (fun e => f e i)).sum = (l.map (fun e => ∑ i, f e i)).sum := by
  induction l with
  | nil => simp
  | cons a l ih =>
    simp only [List.map_cons, List.sum_cons]
    rw [Finset.sum_add_distrib, ih]

theorem sum_gather {es : List (Edge Int)} {q : Edge Int → Fin K → Rat} (h : ∀ e ∈ es, ∑ i, q e i = 1) (v : Nat) :
    ∑ i, gather es (fun e => q e i) v = tokensAt es v := by
  have key : ∀ l : List (Edge Int), (∀ e ∈ l, e ∈ es) →
      ∑ i, (l.map (fun e => q e i * (e.val : Rat))).sum = (l.map (fun e => (1 : Rat) * e.val)).sum := by
    intro l hl
    rw [list_sum_swap l (fun e i => q e i * (e.val : Rat))]
    congr 1
    apply List.map_congr_left
    intro e he
    rw [← Finset.sum_mul, h e (hl e he)]
  unfold tokensAt gather
  rw [Finset.sum_add_distrib, key _ (fun e he => (List.mem_filter.mp he).1), key _ (fun e he => (List.mem_filter.mp he).1)]

theorem tokensAt_pos {es : List (Edge Int)} (hpos : ∀ e ∈ es, 0 < e.val) {v : Nat} (h : Rated es v) : 0 < tokensAt es v := by
  have hnn : ∀ l : List (Edge Int), (∀ e ∈ l, e ∈ es) → 0 ≤ (l.map (fun e => (1 : Rat) * e.val)).sum := by
    intro l hl
    apply list_sum_nonneg
    intro e he
    have : (0 : Rat) < e.val := by exact_mod_cast hpos e (hl e he)
    linarith
  have hp : ∀ l : List (Edge Int), (∀ e ∈ l, e ∈ es) → l ≠ [] → 0 < (l.map (fun e => (1 : Rat) * e.val)).sum := by
    intro l hl hne
    cases l with
    | nil => exact absurd rfl hne
    | cons a l =>
      rw [List.map_cons, List.sum_cons]
      have h1 : (0 : Rat) < a.val := by exact_mod_cast hpos a (hl a (List.mem_cons_self ..))
      have h2 := hnn l (fun e he => hl e (List.mem_cons_of_mem _ he))
      linarith
  unfold tokensAt gather
  rw [rated_iff] at h
  rcases h with h | h
  · exact add_pos_of_pos_of_nonneg (hp _ (fun e he => (List.mem_filter.mp he).1) h) (hnn _ (fun e he => (List.mem_filter.mp he).1))
  · exact add_pos_of_nonneg_of_pos (hnn _ (fun e he => (List.mem_filter.mp he).1)) (hp _ (fun e he => (List.mem_filter.mp he).1) h)

theorem shareOf_ok {w : Fin K → Rat} (h0 : ∀ i, 0 ≤ w i) (hp : 0 < ∑ i, w i) :
    (∀ i, 0 ≤ shareOf w i) ∧ ∑ i, shareOf w i = 1 := by
  refine ⟨fun i => div_nonneg (h0 i) (le_of_lt hp), ?_⟩
  unfold shareOf
  rw [← Finset.sum_div, div_self (ne_of_gt hp)]

/-- Counts that come from a distribution of the occurrences of each edge over the topics. -/
structure CountsOk (es : List (Edge Int)) (ndoc n : Nat) (x : Nat → Fin K → Rat) : Prop where
  nonneg : ∀ v, Rated es v → ∀ i, 0 ≤ x v i
  tokens : ∀ v, Rated es v → ∑ i, x v i = tokensAt es v
  agree : ∀ i, docTotal es ndoc x i = wordTotal ndoc n x i
  total : ∑ i, wordTotal ndoc n x i = (es.map (fun e => (e.val : Rat))).sum

theorem CountsOk.of_shares {es : List (Edge Int)} {ndoc n : Nat} (hv : ∀ e ∈ es, e.Valid n) (hj : ∀ e ∈ es, e.Joins ndoc)
    (hpos : ∀ e ∈ es, 0 < e.val) (hall : ∀ v, ndoc < v → v ≤ n → Rated es v) {x : Nat → Fin K → Rat} {q : Edge Int → Fin K → Rat}
    (hq : ∀ e ∈ es, (∀ i, 0 ≤ q e i) ∧ ∑ i, q e i = 1)
    (hx : ∀ v, Rated es v → ∀ i, x v i = gather es (fun e => q e i) v) : CountsOk es ndoc n x := by
  have hw : ∀ i, wordTotal ndoc n x i = (es.map (fun e => q e i * e.val)).sum := by
    intro i
    rw [← sum_gather_words hv hj (fun e => q e i)]
    apply Finset.sum_congr rfl
    intro v hm
    rw [Finset.mem_Icc] at hm
    exact hx v (hall v (by omega) hm.2) i
  refine ⟨?_, ?_, ?_, ?_⟩
  · intro v hr i
    rw [hx v hr i]
    apply gather_nonneg
    intro e he
    have : (0 : Rat) < e.val := by exact_mod_cast hpos e he
    exact mul_nonneg ((hq e he).1 i) (le_of_lt this)
  · intro v hr
    rw [← sum_gather (fun e he => (hq e he).2) v]
    exact Finset.sum_congr rfl (fun i _ => hx v hr i)
  · intro i
    rw [hw i, ← sum_gather_docs hv hj (fun e => q e i)]
    apply Finset.sum_congr rfl
    intro v _
    by_cases hr : Rated es v
    · rw [if_pos hr]; exact hx v hr i
    · rw [if_neg hr, gather_not_rated hr]
  · rw [Finset.sum_congr rfl (fun i _ => hw i), list_sum_swap es (fun e i => q e i * (e.val : Rat))]
    congr 1
    apply List.map_congr_left
    intro e he
    rw [← Finset.sum_mul, (hq e he).2, one_mul]

theorem Edge.Joins.rated {es : List (Edge Int)} {ndoc n : Nat} {e : Edge Int} (he : e ∈ es) (hv : e.Valid n) :
    Rated es (docOf ndoc e) ∧ Rated es (wordOf ndoc e) := by
  obtain ⟨b1, b2, b3, b4⟩ := hv
  unfold docOf wordOf
  by_cases h : e.src ≤ (ndoc : Int)
  · rw [if_pos h, if_pos h]
    exact ⟨⟨e, he, .inl (by omega)⟩, ⟨e, he, .inr (by omega)⟩⟩
  · rw [if_neg h, if_neg h]
    exact ⟨⟨e, he, .inr (by omega)⟩, ⟨e, he, .inl (by omega)⟩⟩

theorem CountsOk.wordTotal_nonneg {es : List (Edge Int)} {ndoc n : Nat} {x : Nat → Fin K → Rat}
    (hall : ∀ v, ndoc < v → v ≤ n → Rated es v) (h : CountsOk es ndoc n x) (i : Fin K) : 0 ≤ wordTotal ndoc n x i := by
  apply Finset.sum_nonneg
  intro v hm
  rw [Finset.mem_Icc] at hm
  exact h.nonneg v (hall v (by omega) hm.2) i

/-- No division by zero in the next step. -/
theorem CountsOk.weights {es : List (Edge Int)} {ndoc n : Nat} (hv : ∀ e ∈ es, e.Valid n)
    (hpos : ∀ e ∈ es, 0 < e.val) (hall : ∀ v, ndoc < v → v ≤ n → Rated es v) {alpha eta vocab : Rat} (ha : 1 ≤ alpha)
    (he : 1 < eta) (hvo : 0 < vocab) {x : Nat → Fin K → Rat} (h : CountsOk es ndoc n x) :
    (∀ i, 0 < wordTotal ndoc n x i + vocab * (eta - 1)) ∧
    ∀ e ∈ es, (∀ i, 0 ≤ edgeTopics alpha eta vocab ndoc n x e i) ∧ 0 < ∑ i, edgeTopics alpha eta vocab ndoc n x e i := by
  have hden : ∀ i, 0 < wordTotal ndoc n x i + vocab * (eta - 1) := by
    intro i
    have h1 := h.wordTotal_nonneg hall i
    have h2 : 0 < vocab * (eta - 1) := mul_pos hvo (by linarith)
    linarith
  refine ⟨hden, ?_⟩
  intro e hm
  obtain ⟨r1, r2⟩ := Edge.Joins.rated (ndoc := ndoc) hm (hv e hm)
  have hnn : ∀ i, 0 ≤ edgeTopics alpha eta vocab ndoc n x e i := by
    intro i
    have h1 := h.nonneg _ r1 i
    have h2 := h.nonneg _ r2 i
    exact div_nonneg (mul_nonneg (by linarith) (by linarith)) (le_of_lt (hden i))
  refine ⟨hnn, ?_⟩
  have ht := h.tokens _ r1
  have htp := tokensAt_pos hpos r1
  obtain ⟨i, hi⟩ : ∃ i, 0 < x (docOf ndoc e) i := by
    apply Classical.byContradiction
    intro hno
    have : ∑ i, x (docOf ndoc e) i ≤ 0 := Finset.sum_nonpos (fun i _ => by
      apply Classical.byContradiction
      intro hi
      exact hno ⟨i, not_le.mp hi⟩)
    rw [ht] at this
    linarith
  have h2 := h.nonneg _ r2 i
  have hpi : 0 < edgeTopics alpha eta vocab ndoc n x e i :=
    div_pos (mul_pos (by linarith) (by linarith)) (hden i)
  exact Finset.sum_pos' (fun j _ => hnn j) ⟨i, Finset.mem_univ i, hpi⟩

theorem CountsOk.next {es : List (Edge Int)} {ndoc n : Nat} (hv : ∀ e ∈ es, e.Valid n) (hj : ∀ e ∈ es, e.Joins ndoc)
    (hpos : ∀ e ∈ es, 0 < e.val) (hall : ∀ v, ndoc < v → v ≤ n → Rated es v) {alpha eta vocab : Rat} (ha : 1 ≤ alpha)
    (he : 1 < eta) (hvo : 0 < vocab) {x : Nat → Fin K → Rat} (h : CountsOk es ndoc n x) :
    CountsOk es ndoc n (ldaNext alpha eta vocab es ndoc n x) := by
  obtain ⟨_, h2⟩ := h.weights hv hpos hall ha he hvo
  refine CountsOk.of_shares hv hj hpos hall (q := fun e => shareOf (edgeTopics alpha eta vocab ndoc n x e)) ?_ ?_
  · intro e hm
    exact shareOf_ok (h2 e hm).1 (h2 e hm).2
  · intro v hr i
    unfold ldaNext
    rw [if_pos hr]

theorem CountsOk.start {es : List (Edge Int)} {ndoc n : Nat} (hv : ∀ e ∈ es, e.Valid n) (hj : ∀ e ∈ es, e.Joins ndoc)
    (hpos : ∀ e ∈ es, 0 < e.val) (hall : ∀ v, ndoc < v → v ≤ n → Rated es v) {rnd : Int → Fin K → Rat}
    (hr : ∀ e ∈ es, (∀ i, 0 ≤ rnd e.val i) ∧ 0 < ∑ i, rnd e.val i) (x : Nat → Fin K → Rat) :
    CountsOk es ndoc n (ldaStart es rnd x) := by
  refine CountsOk.of_shares hv hj hpos hall (q := fun e => shareOf (rnd e.val)) ?_ ?_
  · intro e hm
    exact shareOf_ok (hr e hm).1 (hr e hm).2
  · intro v hr i
    unfold ldaStart
    rw [if_pos hr]

theorem CountsOk.iterate {es : List (Edge Int)} {ndoc n : Nat} (hv : ∀ e ∈ es, e.Valid n) (hj : ∀ e ∈ es, e.Joins ndoc)
    (hpos : ∀ e ∈ es, 0 < e.val) (hall : ∀ v, ndoc < v → v ≤ n → Rated es v) {alpha eta vocab : Rat} (ha : 1 ≤ alpha)
    (he : 1 < eta) (hvo : 0 < vocab) (m : Nat) {x : Nat → Fin K → Rat} (h : CountsOk es ndoc n x) :
    CountsOk es ndoc n (Nat.iterate (ldaNext alpha eta vocab es ndoc n) m x) := by
  induction m generalizing x with
  | zero => exact h
  | succ m ih => exact ih (h.next hv hj hpos hall ha he hvo)

/-- The estimated probabilities are positive and those of all words add up to one. -/
theorem CountsOk.prob {es : List (Edge Int)} {ndoc n : Nat} (hall : ∀ v, ndoc < v → v ≤ n → Rated es v) {eta : Rat}
    (he : 1 < eta) (hn : ndoc < n) (hK : 0 < K) {x : Nat → Fin K → Rat} (h : CountsOk es ndoc n x) {d : Nat} (hd : Rated es d) :
    0 < ∑ j, (x d j + (eta - 1)) ∧
    (∀ w, ndoc < w → w ≤ n → 0 < wordProb eta ((n - ndoc : Nat) : Rat) (wordTotal ndoc n x) (x d) (x w)) ∧
    ∑ w ∈ Finset.Icc (ndoc + 1) n, wordProb eta ((n - ndoc : Nat) : Rat) (wordTotal ndoc n x) (x d) (x w) = 1 := by
  have hne : (Finset.univ : Finset (Fin K)).Nonempty := ⟨⟨0, hK⟩, Finset.mem_univ _⟩
  have hvo : (0 : Rat) < ((n - ndoc : Nat) : Rat) := by
    have : 0 < n - ndoc := by omega
    exact_mod_cast this
  have hden : ∀ i, 0 < wordTotal ndoc n x i + ((n - ndoc : Nat) : Rat) * (eta - 1) := by
    intro i
    have h1 := h.wordTotal_nonneg hall i
    have h2 : 0 < ((n - ndoc : Nat) : Rat) * (eta - 1) := mul_pos hvo (by linarith)
    linarith
  have hdp : ∀ j, 0 < x d j + (eta - 1) := by
    intro j
    have := h.nonneg d hd j
    linarith
  have hs : 0 < ∑ j, (x d j + (eta - 1)) := Finset.sum_pos (fun j _ => hdp j) hne
  refine ⟨hs, ?_, ?_⟩
  · intro w w1 w2
    refine Finset.sum_pos (fun i _ => ?_) hne
    have := h.nonneg w (hall w w1 w2) i
    exact mul_pos (div_pos (by linarith) (hden i)) (div_pos (hdp i) hs)
  · unfold wordProb
    rw [Finset.sum_comm]
    have hone : ∀ i : Fin K, ∑ w ∈ Finset.Icc (ndoc + 1) n, (x w i + (eta - 1)) /
        (wordTotal ndoc n x i + ((n - ndoc : Nat) : Rat) * (eta - 1)) * shareOf (fun j => x d j + (eta - 1)) i =
        shareOf (fun j => x d j + (eta - 1)) i := by
      intro i
      rw [← Finset.sum_mul, ← Finset.sum_div, Finset.sum_add_distrib, Finset.sum_const, Nat.card_Icc, nsmul_eq_mul]
      have : n + 1 - (ndoc + 1) = n - ndoc := by omega
      rw [this]
      have hw : ∑ w ∈ Finset.Icc (ndoc + 1) n, x w i = wordTotal ndoc n x i := rfl
      rw [hw, div_self (ne_of_gt (hden i)), one_mul]
    rw [Finset.sum_congr rfl (fun i _ => hone i)]
    exact (shareOf_ok (fun i => le_of_lt (hdp i)) hs).2

end GraphMat

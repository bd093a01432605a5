import Verif.Model.Tile
import Verif.Lemmas.Mem
import Verif.Lemmas.Compress

/-! Lemmas on DCSC tiles: what the arrays built by the constructor contain. -/
namespace GraphMat

variable {E : Type} {σ : Type} {α β : Type}

/-! ### Lists, loops and prefix sums -/

/-- A counted loop over the positions of a list is a fold over the list. -/
theorem forLoop_list {l : List β} {lo hi : Nat} {body : Nat → σ → Option σ} {F : σ → β → Option σ}
    (hhi : hi = lo + l.length) (h : ∀ k (hk : k < l.length) s, body (lo + k) s = F s l[k]) (s : σ) :
    forLoop lo hi s body = l.foldlM F s := by
  subst hhi
  induction l generalizing lo s with
  | nil => rw [forLoop_empty (by simp)]; rfl
  | cons a l ih =>
    rw [forLoop_succ_left (by simp), List.foldlM_cons]
    have h0 := h 0 (by simp) s
    rw [Nat.add_zero] at h0
    rw [h0]
    simp only [List.getElem_cons_zero]
    cases F s a with
    | none => rfl
    | some s' =>
      rw [Option.bind_some]
      have := ih (lo := lo + 1) (fun k hk s => by
        have := h (k + 1) (by simpa using hk) s
        rw [show lo + 1 + k = lo + (k + 1) by omega, this]; rfl) s'
      simp only [List.length_cons] at *
      rw [show lo + (l.length + 1) = lo + 1 + l.length by omega, this]
      rfl

/-- `f 0 + .. + f (p-1)`. -/
def psum (f : Nat → Nat) : Nat → Nat
  | 0 => 0
  | p + 1 => psum f p + f p

theorem psum_mono (f : Nat → Nat) {p q : Nat} (h : p ≤ q) : psum f p ≤ psum f q := by
  induction q with
  | zero => have : p = 0 := by omega
            subst this; exact Nat.le_refl _
  | succ q ih =>
    rcases Nat.lt_or_ge p (q + 1) with h1 | h1
    · have := ih (by omega); simp only [psum]; omega
    · have : p = q + 1 := by omega
      subst this; exact Nat.le_refl _

theorem psum_congr {f g : Nat → Nat} {p : Nat} (h : ∀ q, q < p → f q = g q) : psum f p = psum g p := by
  induction p with
  | zero => rfl
  | succ p ih => simp only [psum]; rw [ih (fun q hq => h q (by omega)), h p (by omega)]

/-! ### Row partitions -/

theorem staticPartition_spec (g : Nat → Nat) (m : Nat) {np : Nat} (hnp : 0 < np) :
    ∃ rp, staticPartition g m np = some rp ∧ rp.size = np + 1 ∧ rp.get 0 = 0 ∧ rp.get np = m ∧
      (∀ p, p < np → rp.get p ≤ rp.get (p + 1)) ∧
      (∀ p, p ≤ np → 32 ∣ rp.get p ∨ rp.get p = m) := by
  unfold staticPartition
  rw [if_neg (by omega)]
  obtain ⟨N, hN⟩ : ∃ N, N = max (m / 32 / np) 1 := ⟨_, rfl⟩
  have hlt : m / 32 - N * np < np := by
    have h1 := Nat.div_add_mod (m / 32) np
    have h2 := Nat.mod_lt (m / 32) hnp
    rw [hN]
    by_cases h : m / 32 / np = 0
    · rw [h] at h1 ⊢
      simp at h1 ⊢
      omega
    · have : max (m / 32 / np) 1 = m / 32 / np := Nat.max_eq_left (Nat.pos_of_ne_zero h)
      rw [this]
      rw [Nat.mul_comm] at h1
      omega
  simp only [← hN]
  rw [if_neg (by omega)]
  rw [Arr.write_some (by simp)]
  simp only [Option.bind_eq_bind, Option.bind_some]
  obtain ⟨st, h1, h2, h3, h4, h5⟩ := forLoop_inv (lo := 1) (hi := np)
    (s := ((⟨np + 1, g⟩ : Arr Nat).upd 0 0, m / 32 - N * np))
    (body := fun p st => (st.1.read (p - 1)).bind fun prev =>
      (st.1.write p (prev + (if st.2 > 0 then (N + 1) * 32 else N * 32))).bind fun rp =>
      (rp.read p).bind fun x => (rp.write p (min x m)).bind fun rp => some (rp, st.2 - 1))
    (fun p st => st.1.size = np + 1 ∧ st.1.get 0 = 0 ∧
      (∀ q, q + 1 < p → st.1.get q ≤ st.1.get (q + 1)) ∧
      (∀ q, q < p → st.1.get q ≤ m ∧ (32 ∣ st.1.get q ∨ st.1.get q = m)))
    (by omega) ⟨rfl, by simp, by intro q hq; omega, by
      intro q hq
      have : q = 0 := by omega
      subst this; simp⟩ (by
      intro p st hp1 hp2 ⟨i1, i2, i3, i4⟩
      have hprev := i4 (p - 1) (by omega)
      rw [Arr.read_some (by omega), Option.bind_some, Arr.write_some (by omega), Option.bind_some,
        Arr.read_some (by simp; omega), Option.bind_some, Arr.write_some (by simp; omega),
        Option.bind_some]
      refine ⟨_, rfl, by simpa using i1, ?_, ?_, ?_⟩
      · simp only [Arr.upd_get]
        rw [if_neg (by omega), if_neg (by omega)]; exact i2
      · intro q hq
        simp only [Arr.upd_get]
        rw [if_neg (by omega : ¬ q = p), if_neg (by omega : ¬ q = p)]
        by_cases hqp : q + 1 = p
        · simp only [if_pos hqp, ite_true]
          have : q = p - 1 := by omega
          subst this
          have := hprev.1
          split <;> omega
        · rw [if_neg hqp, if_neg hqp]; exact i3 q (by omega)
      · intro q hq
        simp only [Arr.upd_get]
        by_cases hqp : q = p
        · simp only [if_pos hqp, ite_true]
          refine ⟨Nat.min_le_right _ _, ?_⟩
          have := hprev.2
          split
          · rcases this with h | h <;> omega
          · rcases this with h | h <;> omega
        · rw [if_neg hqp, if_neg hqp]; exact i4 q (by omega))
  rw [h1, Option.bind_some, Arr.write_some (by omega)]
  refine ⟨_, rfl, by simpa using h2, ?_, by simp, ?_, ?_⟩
  · rw [Arr.upd_get, if_neg (by omega)]; exact h3
  · intro p hp
    rw [Arr.upd_get, Arr.upd_get, if_neg (by omega)]
    by_cases hq : p + 1 = np
    · rw [if_pos hq]; exact (h5 p hp).1
    · rw [if_neg hq]; exact h4 p (by omega)
  · intro p hp
    rw [Arr.upd_get]
    by_cases hq : p = np
    · rw [if_pos hq]; exact Or.inr rfl
    · rw [if_neg hq]; exact (h5 p (by omega)).2

theorem mono_of_step {f : Nat → Nat} {n : Nat} (h : ∀ p, p < n → f p ≤ f (p + 1)) {i j : Nat}
    (hij : i ≤ j) (hj : j ≤ n) : f i ≤ f j := by
  induction j with
  | zero => have : i = 0 := by omega
            subst this; exact Nat.le_refl _
  | succ j ih =>
    rcases Nat.lt_or_ge i (j + 1) with h1 | h1
    · exact Nat.le_trans (ih (by omega) (by omega)) (h j (by omega))
    · have : i = j + 1 := by omega
      subst this; exact Nat.le_refl _

theorem findPart_spec {rp : Arr Nat} {np s : Nat} (hsz : rp.size = np + 1) (h0 : rp.get 0 = 0) (k : Nat)
    (hk : k ≤ np) (hs : s < rp.get k) :
    ∃ p, p < k ∧ findPart rp s k = some p ∧ rp.get p ≤ s ∧ s < rp.get (p + 1) := by
  induction k with
  | zero => omega
  | succ k ih =>
    unfold findPart
    rw [Arr.read_some (by omega), Arr.read_some (by omega)]
    simp only [Option.bind_eq_bind, Option.bind_some]
    by_cases h : rp.get k ≤ s
    · rw [if_pos (by omega)]
      exact ⟨k, by omega, rfl, h, hs⟩
    · rw [if_neg (by omega), if_pos (by omega)]
      obtain ⟨p, h1, h2, h3⟩ := ih (by omega) (by omega)
      exact ⟨p, by omega, h2, h3⟩

theorem findPart_some {rp : Arr Nat} {s : Int} {k p : Nat} (h : findPart rp s k = some p) :
    p < k ∧ (rp.get p : Int) ≤ s ∧ s < rp.get (p + 1) := by
  induction k with
  | zero => cases h
  | succ k ih =>
    unfold findPart at h
    unfold Arr.read at h
    simp only [Option.bind_eq_bind] at h
    split at h
    · split at h
      · simp only [Option.bind_some] at h
        split at h
        · rename_i hc
          injection h with h; subst h
          exact ⟨by omega, hc⟩
        · split at h
          · have := ih h; exact ⟨by omega, this.2⟩
          · cases h
      · cases h
    · cases h

/-! ### Edge pointers -/

theorem edgePtrLoop_spec {rp : Arr Nat} {np src q eid : Nat} (hsz : rp.size = np + 1)
    (hm : ∀ p, p < np → rp.get p ≤ rp.get (p + 1)) (hq : q < np) (h1 : rp.get q ≤ src)
    (h2 : src < rp.get (q + 1)) (fuel : Nat) :
    ∀ (ep : Arr Nat) (p : Nat), ep.size = np + 1 → p ≤ q + 1 → q + 1 - p < fuel →
    ∃ ep', edgePtrLoop rp src eid fuel ep p = some (ep', q + 1) ∧ ep'.size = np + 1 ∧
      ∀ k, ep'.get k = if p ≤ k ∧ k ≤ q then eid else ep.get k := by
  induction fuel with
  | zero => intro ep p _ _ h; omega
  | succ fuel ih =>
    intro ep p hep hp hf
    unfold edgePtrLoop
    rw [Arr.read_some (by omega)]
    simp only [Option.bind_eq_bind, Option.bind_some]
    by_cases hpq : p = q + 1
    · subst hpq
      rw [if_neg (by omega)]
      refine ⟨ep, rfl, hep, ?_⟩
      intro k; rw [if_neg (by omega)]
    · have hle := mono_of_step hm (show p ≤ q by omega) (by omega)
      rw [if_pos (by omega), Arr.write_some (by omega), Option.bind_some]
      obtain ⟨ep', e1, e2, e3⟩ := ih (ep.upd p eid) (p + 1) (by simpa using hep) (by omega) (by omega)
      refine ⟨ep', e1, e2, ?_⟩
      intro k
      rw [e3, Arr.upd_get]
      by_cases hk : k = p
      · subst hk; rw [if_neg (by omega), if_pos rfl, if_pos (by omega)]
      · by_cases hk2 : p ≤ k ∧ k ≤ q
        · rw [if_pos (by omega), if_pos hk2]
        · rw [if_neg (by omega), if_neg hk, if_neg hk2]

theorem countP_split {l : List α} {P : α → Bool} {i : Nat} (hi : i ≤ l.length)
    (h1 : ∀ j (hj : j < l.length), j < i → P l[j] = true)
    (h2 : ∀ j (hj : j < l.length), i ≤ j → P l[j] = false) : l.countP P = i := by
  induction l generalizing i with
  | nil => simp at hi; subst hi; rfl
  | cons a l ih =>
    cases i with
    | zero =>
      rw [List.countP_eq_zero]
      intro x hx
      obtain ⟨j, hj, rfl⟩ := List.getElem_of_mem hx
      rw [h2 j hj (by omega)]; simp
    | succ i =>
      have ha := h1 0 (by simp) (by omega)
      simp only [List.getElem_cons_zero] at ha
      rw [List.countP_cons_of_pos ha]
      rw [ih (i := i) (by simpa using hi) (fun j hj hji => by
        have := h1 (j + 1) (by simpa using hj) (by omega)
        simpa using this) (fun j hj hji => by
        have := h2 (j + 1) (by simpa using hj) (by omega)
        simpa using this)]

theorem setEdgePointers_spec (g : Nat → Nat) {S : List (TEdge E)} {rp : Arr Nat} {np : Nat}
    (hsz : rp.size = np + 1) (hm : ∀ p, p < np → rp.get p ≤ rp.get (p + 1))
    (hS : S.Pairwise (fun a b => a.tile ≤ b.tile))
    (hin : ∀ e ∈ S, e.tile < np ∧ rp.get e.tile ≤ e.src ∧ e.src < rp.get (e.tile + 1)) :
    ∃ ep, setEdgePointers g S rp np = some ep ∧ ep.size = np + 1 ∧
      ∀ p, p ≤ np → ep.get p = S.countP (fun e => decide (e.tile < p)) := by
  unfold setEdgePointers
  have hsort : ∀ i j (hi : i < S.length) (hj : j < S.length), i < j → S[i].tile ≤ S[j].tile :=
    fun i j hi hj hij => List.pairwise_iff_getElem.mp hS i j hi hj hij
  obtain ⟨st, h1, h2, h3, h4, h5⟩ := forLoop_inv (lo := 0) (hi := S.length)
    (s := ((⟨np + 1, g⟩ : Arr Nat), 0))
    (body := fun eid st => (S[eid]?).bind fun e => edgePtrLoop rp e.src eid (np + 2) st.1 st.2)
    (fun i st => st.1.size = np + 1 ∧ (st.2 = 0 ∨ ∃ j, ∃ hj : j < S.length, j < i ∧ st.2 = S[j].tile + 1) ∧
      (∀ k, k < st.2 → st.1.get k = S.countP (fun e => decide (e.tile < k))) ∧
      (∀ j (hj : j < S.length), j < i → S[j].tile < st.2))
    (by omega) ⟨rfl, Or.inl rfl, by intro k hk; simp at hk, by intro j hj h; omega⟩ (by
      intro i st _ hi ⟨i1, i2, i3, i4⟩
      have hmem := hin S[i] (List.getElem_mem hi)
      have hp : st.2 ≤ S[i].tile + 1 := by
        rcases i2 with h | ⟨j, hj, hji, h⟩
        · omega
        · have := hsort j i hj hi hji
          omega
      obtain ⟨ep', e1, e2, e3⟩ := edgePtrLoop_spec (eid := i) hsz hm hmem.1 hmem.2.1 hmem.2.2 (np + 2) st.1 st.2
        i1 hp (by omega)
      refine ⟨(ep', S[i].tile + 1), ?_, e2, ?_, ?_, ?_⟩
      · rw [List.getElem?_eq_getElem hi, Option.bind_some, e1]
      · exact Or.inr ⟨i, hi, by omega, rfl⟩
      · intro k hk
        rw [e3]
        by_cases hk2 : k < st.2
        · rw [if_neg (by omega)]; exact i3 k hk2
        · rw [if_pos (by simp at hk; omega)]
          refine (countP_split (by omega) ?_ ?_).symm
          · intro j hj hji
            have := i4 j hj hji
            simp; omega
          · intro j hj hij
            have : S[i].tile ≤ S[j].tile := by
              rcases Nat.lt_or_ge i j with h | h
              · exact hsort i j hi hj h
              · have : i = j := by omega
                subst this; exact Nat.le_refl _
            simp at hk ⊢; omega
      · intro j hj hji
        have : S[j].tile ≤ S[i].tile := by
          rcases Nat.lt_or_ge j i with h | h
          · exact hsort j i hj hi h
          · have : i = j := by omega
            subst this; exact Nat.le_refl _
        simp; omega)
  have hst : st.2 ≤ np := by
    rcases h3 with h | ⟨j, hj, _, h⟩
    · omega
    · have := (hin S[j] (List.getElem_mem hj)).1; omega
  have hlast : ∀ k, st.2 ≤ k → S.countP (fun e => decide (e.tile < k)) = S.length := by
    intro k hk
    refine countP_split (Nat.le_refl _) ?_ (fun j hj h => by omega)
    intro j hj _
    have := h5 j hj hj
    simp; omega
  simp only [Option.bind_eq_bind]
  rw [h1, Option.bind_some, Arr.write_some (by omega), Option.bind_some]
  obtain ⟨ep, e1, e2, e3⟩ := forLoop_inv (lo := st.2 + 1) (hi := np + 1) (s := st.1.upd st.2 S.length)
    (body := fun p ep => ep.write p S.length)
    (fun k ep => ep.size = np + 1 ∧ ∀ p, p < k → ep.get p = S.countP (fun e => decide (e.tile < p)))
    (by omega) ⟨by simpa using h2, by
      intro p hp
      rw [Arr.upd_get]
      by_cases hps : p = st.2
      · rw [if_pos hps, hlast p (by omega)]
      · rw [if_neg hps]; exact h4 p (by omega)⟩ (by
      intro k ep hk1 hk2 ⟨j1, j2⟩
      refine ⟨_, Arr.write_some (by omega), by simpa using j1, ?_⟩
      intro p hp
      rw [Arr.upd_get]
      by_cases hpk : p = k
      · rw [if_pos hpk, hlast p (by omega)]
      · rw [if_neg hpk]; exact j2 p (by omega))
  exact ⟨ep, e1, e2, fun p hp => e3 p (by omega)⟩

/-! ### The edges of one partition -/

theorem sorted_filter_append {l : List α} {f : α → Nat} (h : l.Pairwise (fun a b => f a ≤ f b)) (p : Nat) :
    l.filter (fun a => decide (f a < p)) ++ l.filter (fun a => decide (p ≤ f a)) = l := by
  induction l with
  | nil => rfl
  | cons a l ih =>
    rw [List.pairwise_cons] at h
    by_cases ha : f a < p
    · rw [List.filter_cons_of_pos (by simpa using ha), List.filter_cons_of_neg (by simpa using ha),
        List.cons_append, ih h.2]
    · have hnil : l.filter (fun a => decide (f a < p)) = [] := by
        rw [List.filter_eq_nil_iff]
        intro b hb
        have := h.1 b hb
        simp; omega
      have hall : l.filter (fun a => decide (p ≤ f a)) = l := by
        rw [List.filter_eq_self]
        intro b hb
        have := h.1 b hb
        simp; omega
      rw [List.filter_cons_of_neg (by simpa using ha), List.filter_cons_of_pos (by simp; omega), hnil, hall]
      rfl

/-- The edges of partition `p`. -/
def partOf (S : List (TEdge E)) (p : Nat) : List (TEdge E) := S.filter (fun e => decide (e.tile = p))

theorem countP_tile {S : List (TEdge E)} (p : Nat) :
    S.countP (fun e => decide (e.tile < p)) = psum (fun q => (partOf S q).length) p := by
  induction p with
  | zero => rw [List.countP_eq_zero.mpr (by simp)]; rfl
  | succ p ih =>
    rw [psum, ← ih]
    unfold partOf
    rw [← List.countP_eq_length_filter]
    clear ih
    induction S with
    | nil => rfl
    | cons a S ih =>
      rw [List.countP_cons, List.countP_cons, List.countP_cons, ih]
      by_cases h1 : a.tile < p
      · rw [if_pos (by simp; omega), if_pos (by simpa using h1), if_neg (by simp; omega)]; omega
      · by_cases h2 : a.tile = p
        · rw [if_pos (by simp; omega), if_neg (by simpa using h1), if_pos (by simpa using h2)]; omega
        · rw [if_neg (by simp; omega), if_neg (by simpa using h1), if_neg (by simpa using h2)]; omega

theorem partOf_getElem {S : List (TEdge E)} (hS : S.Pairwise (fun a b => a.tile ≤ b.tile)) {p k : Nat}
    (hk : k < (partOf S p).length) :
    S[psum (fun q => (partOf S q).length) p + k]? = some (partOf S p)[k] := by
  have h1 := sorted_filter_append hS p
  have h2 : (S.filter (fun a => decide (p ≤ a.tile))).filter (fun a => decide (a.tile < p + 1)) = partOf S p := by
    rw [List.filter_filter]
    unfold partOf
    apply List.filter_congr
    intro x _
    by_cases h : x.tile = p
    · simp [h]
    · simp [h]; omega
  have h3 := sorted_filter_append (hS.sublist (List.filter_sublist (p := fun a => decide (p ≤ a.tile)))) (p + 1)
  rw [h2] at h3
  have hl : (S.filter (fun a => decide (a.tile < p))).length = psum (fun q => (partOf S q).length) p := by
    rw [← countP_tile, List.countP_eq_length_filter]
  rw [← h3] at h1
  refine (congrArg (fun l : List (TEdge E) => l[psum (fun q => (partOf S q).length) p + k]?) h1).symm.trans ?_
  show (_ ++ _)[_]? = _
  rw [List.getElem?_append_right (by omega), hl, Nat.add_sub_cancel_left,
    List.getElem?_append_left hk, List.getElem?_eq_getElem hk]

theorem sum_parts {S : List (TEdge E)} {np : Nat} (h : ∀ e ∈ S, e.tile < np) :
    psum (fun q => (partOf S q).length) np = S.length := by
  rw [← countP_tile, List.countP_eq_length]
  intro e he
  simpa using h e he

theorem flatMap_partOf {S : List (TEdge E)} (hS : S.Pairwise (fun a b => a.tile ≤ b.tile)) (p : Nat) :
    (List.range p).flatMap (partOf S) = S.filter (fun e => decide (e.tile < p)) := by
  induction p with
  | zero => symm; rw [List.range_zero, List.flatMap_nil, List.filter_eq_nil_iff]; simp
  | succ p ih =>
    rw [List.range_succ, List.flatMap_append, ih]
    have h1 := sorted_filter_append (hS.sublist (List.filter_sublist (p := fun a => decide (a.tile < p + 1)))) p
    rw [List.filter_filter, List.filter_filter] at h1
    rw [← h1]
    congr 1
    · apply List.filter_congr
      intro x _
      by_cases h : x.tile < p
      · simp [h]; omega
      · simp [h]
    · simp only [List.flatMap_cons, List.flatMap_nil, List.append_nil]
      apply List.filter_congr
      intro x _
      by_cases h : x.tile = p
      · simp [h]
      · simp [h]; omega

end GraphMat

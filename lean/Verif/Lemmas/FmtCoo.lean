import Verif.Lemmas.FmtDcsr

/-!
# The constructor of COO tiles, and `get_edges`
-/
namespace GraphMat

variable {E T U α : Type}

/-- The partitions, for either search function. -/
theorem cooParts_spec {search : Int → Option Int} {v : Arr Int} {n : Nat}
    (hsearch : ∀ item, ∃ r : Nat, search item = some (r : Int) ∧ IsCross v n item r) (hv : ∀ k, k < n → 1 ≤ v.get k)
    (g : Nat → Nat) (m : Nat) {np : Nat} (hnp : 0 < np) (rpp : Nat) :
    ∃ ps, cooParts search g m np rpp n = some ps ∧ ps.size = np + 1 ∧ ps.get 0 = 0 ∧ ps.get np = n ∧
      (∀ p, p < np → ps.get p ≤ ps.get (p + 1)) ∧ ∀ p, p < np → IsCross v n (((min (p * rpp) m : Nat) : Int) + 1) (ps.get p) := by
  unfold cooParts
  simp only [Option.bind_eq_bind]
  obtain ⟨ps, h1, h2, h3⟩ := forLoop_inv (σ := Arr Nat) (lo := 0) (hi := np) (s := ⟨np + 1, g⟩)
    (body := fun p ps => (search (((min (p * rpp) m : Nat) : Int) + 1)).bind fun s =>
      (search (((min ((p + 1) * rpp) m : Nat) : Int) + 1)).bind fun _ => (natIdx s).bind fun s => ps.write p s)
    (fun p ps => ps.size = np + 1 ∧ ∀ q, q < p → IsCross v n (((min (q * rpp) m : Nat) : Int) + 1) (ps.get q))
    (by omega) ⟨rfl, fun q hq => by omega⟩ (by
      intro p ps _ hp hinv
      obtain ⟨r, r1, r2⟩ := hsearch (((min (p * rpp) m : Nat) : Int) + 1)
      obtain ⟨r', r1', _⟩ := hsearch (((min ((p + 1) * rpp) m : Nat) : Int) + 1)
      rw [r1, Option.bind_some, r1', Option.bind_some, natIdx_nat, Option.bind_some, Arr.write_some (by omega)]
      refine ⟨_, rfl, hinv.1, ?_⟩
      intro q hq
      by_cases he : q = p
      · subst he; rw [Arr.upd_get_self]; exact r2
      · rw [Arr.upd_get_ne _ _ he]; exact hinv.2 q (by omega))
  rw [h1, Option.bind_some, Arr.write_some (by omega)]
  have hget : ∀ p, p < np → (ps.upd np n).get p = ps.get p := fun p hp => Arr.upd_get_ne _ _ (by omega)
  refine ⟨_, rfl, h2, ?_, Arr.upd_get_self _ _ _, ?_, ?_⟩
  · rw [hget 0 hnp]
    rcases Nat.eq_zero_or_pos (ps.get 0) with h | h
    · exact h
    · have h4 := h3 0 hnp
      have := h4.2.1 0 h
      have := hv 0 (by have := h4.1; omega)
      simp at *
      omega
  · intro p hp
    rw [hget p hp]
    by_cases he : p + 1 = np
    · rw [he, Arr.upd_get_self]; exact (h3 p hp).1
    · rw [Arr.upd_get_ne _ _ he]
      have a1 := h3 p hp
      have a2 := h3 (p + 1) (by omega)
      rcases Nat.lt_or_ge (ps.get (p + 1)) (ps.get p) with h | h
      · have b1 := a1.2.1 _ h
        have b2 := a2.2.2 (by have := a1.1; omega)
        have : min (p * rpp) m ≤ min ((p + 1) * rpp) m := by rw [Nat.add_mul]; omega
        omega
      · exact h
  · intro p hp
    rw [hget p hp]
    exact h3 p hp

/-- `get_edges` returns the entries in stored order. -/
theorem COO.Ok.getEdges {t : COO E} {ent : Nat → Nat × Nat × E} (h : t.Ok ent) (rs cs : Nat) :
    t.getEdges rs cs = some ((List.range t.nnz).map (fun k => unlocal rs cs (ent k))) := by
  unfold COO.getEdges
  refine mapM_some ?_
  intro k hk
  rw [List.mem_range] at hk
  simp only [Option.bind_eq_bind]
  rw [Arr.read_some (by rw [h.asz]; exact hk), Option.bind_some, Arr.read_some (by rw [h.jsz]; exact hk),
    Option.bind_some, Arr.read_some (by rw [h.isz]; exact hk), Option.bind_some, h.val k hk, h.col k hk, h.row k hk]
  unfold unlocal
  congr 2 <;> omega

/-- The arrays of a COO tile. -/
theorem coo_fill (g : FmtFresh E) {es : List (Edge E)} {m n rs cs : Nat}
    (hin : ∀ e ∈ es, InTile m n rs cs e) (hss : ∀ i j (hij : i ≤ j) (hj : j < es.length), es[i].src ≤ es[j].src)
    (d : Edge E) :
    ∃ a ja ia, fillFrom g.vals (es.map (·.val)) = some a ∧
      fillFrom (g.ints 4) (es.map (fun e => e.dst - (cs : Int))) = some ja ∧
      fillFrom (g.ints 5) (es.map (fun e => e.src - (rs : Int))) = some ia ∧ ia.size = es.length ∧
      SortedArr ia es.length ∧ (∀ k (hk : k < es.length), ia.get k = es[k].src - (rs : Int)) ∧
      ∀ np ps sd, (⟨m, n, es.length, np, a, ja, ia, ps, sd⟩ : COO E).Ok (entOf rs cs d es) := by
  obtain ⟨a, a1, a2, a3⟩ := fillFrom_spec g.vals (es.map (·.val))
  obtain ⟨ja, b1, b2, b3⟩ := fillFrom_spec (g.ints 4) (es.map (fun e => e.dst - (cs : Int)))
  obtain ⟨ia, c1, c2, c3⟩ := fillFrom_spec (g.ints 5) (es.map (fun e => e.src - (rs : Int)))
  simp only [List.length_map, List.getElem_map] at a2 a3 b2 b3 c2 c3
  refine ⟨a, ja, ia, a1, b1, c1, c2, ?_, c3, ?_⟩
  · intro i j hij hj
    rw [c3 i (by omega), c3 j hj]
    have := hss i j hij hj
    omega
  · intro np ps sd
    refine ⟨a2, b2, c2, ?_, ?_, ?_, ?_, ?_⟩ <;> intro k hk <;> rw [entOf_eq hk] <;>
      obtain ⟨i1, i2, i3, i4⟩ := hin _ (List.getElem_mem (show k < es.length from hk))
    · exact a3 k hk
    · show ja.get k = ((es[k].dst - 1 - cs).toNat : Int) + 1
      rw [b3 k hk]; omega
    · show ia.get k = ((es[k].src - 1 - rs).toNat : Int) + 1
      rw [c3 k hk]; omega
    · show (es[k].dst - 1 - cs).toNat < n
      omega
    · show (es[k].src - 1 - rs).toNat < m
      omega

/-- The partitions consist of different words of rows. -/
def COO.Words (t : COO E) : Prop :=
  ∃ rpp, 32 ∣ rpp ∧ ∀ p, p < t.np → ∀ k, t.ps.get p ≤ k → k < t.ps.get (p + 1) →
    ((p * rpp : Nat) : Int) < t.ia.get k ∧ t.ia.get k ≤ (((p + 1) * rpp : Nat) : Int)

/-- Rows in different partitions are in different words. -/
def COO.Apart (t : COO E) : Prop :=
  ∀ i j, i < j → j < t.np → ∀ k l, t.ps.get i ≤ k → k < t.ps.get (i + 1) → t.ps.get j ≤ l → l < t.ps.get (j + 1) →
    1 ≤ t.ia.get k ∧ ∃ w : Nat, t.ia.get k ≤ ((32 * w : Nat) : Int) ∧ ((32 * w : Nat) : Int) < t.ia.get l

theorem COO.Words.apart {t : COO E} (w : t.Words) : t.Apart := by
  intro i j hij hj k l k1 k2 l1 l2
  obtain ⟨rpp, ⟨q, rfl⟩, w⟩ := w
  obtain ⟨a1, a2⟩ := w i (by omega) k k1 k2
  obtain ⟨b1, b2⟩ := w j hj l l1 l2
  have h1 : (i + 1) * (32 * q) ≤ j * (32 * q) := Nat.mul_le_mul_right _ hij
  refine ⟨by omega, j * q, ?_, ?_⟩
  · rw [Nat.mul_left_comm 32 j q]
    omega
  · rw [Nat.mul_left_comm 32 j q]
    exact b1

/-- Two searches go the same way if no element tells the keys apart. -/
theorem lBinaryLoop_congr {v : Arr Int} {item item' : Int} (h : ∀ k, k < v.size → (v.get k < item ↔ v.get k < item')) :
    ∀ (fuel : Nat) (e1 e2 : Int) (eh : Option Int), lBinaryLoop v item fuel e1 e2 eh = lBinaryLoop v item' fuel e1 e2 eh := by
  intro fuel
  induction fuel with
  | zero => intro e1 e2 eh; rfl
  | succ fuel ih =>
    intro e1 e2 eh
    unfold lBinaryLoop
    simp only [Option.bind_eq_bind]
    by_cases he : e2 ≥ e1
    · rw [if_pos he, if_pos he]
      generalize e2 - (e2 - e1).tdiv 2 = m
      by_cases hz : m = 0
      · rw [if_pos hz, if_pos hz]
      rw [if_neg hz, if_neg hz]
      have hr : ∀ i a, readI v i = some a → (a < item ↔ a < item') := by
        intro i a hi
        unfold readI at hi
        split_ifs at hi with h0
        obtain ⟨h1, rfl⟩ := Arr.read_eq_some.mp hi
        exact h _ h1
      cases h1 : readI v (m - 1) with
      | none => rfl
      | some a =>
        rw [Option.bind_some, Option.bind_some]
        cases h2 : readI v m with
        | none =>
          by_cases ha : a < item
          · rw [if_pos ha, if_pos ((hr _ _ h1).mp ha)]; rfl
          · rw [if_neg ha, if_neg (fun x => ha ((hr _ _ h1).mpr x))]; rfl
        | some b =>
          have e1 := hr _ _ h1
          have e2 := hr _ _ h2
          by_cases ha : a < item <;> by_cases hb : b < item
          · rw [if_pos ha, if_pos (e1.mp ha)]
            simp only [Option.bind_some]
            rw [if_neg (by omega), if_neg (by have := e2.mp hb; omega), ih]
          · rw [if_pos ha, if_pos (e1.mp ha)]
            simp only [Option.bind_some]
            rw [if_pos (by omega), if_pos (by have := mt e2.mpr hb; omega)]
          · rw [if_neg ha, if_neg (mt e1.mpr ha)]
            simp only [Option.bind_some]
            rw [if_neg (by omega), if_neg (by have := e2.mp hb; omega), ih]
          · rw [if_neg ha, if_neg (mt e1.mpr ha)]
            simp only [Option.bind_some]
            rw [if_pos (by omega), if_pos (by have := mt e2.mpr hb; omega), ih]
    · rw [if_neg he, if_neg he]

/-- What the search finds when the number behind the array is not known: the right position, or, if the right position is
that of the last element and the number behind is too small, the end. -/
def NearCross (v : Arr Int) (n : Nat) (item : Int) (r : Nat) : Prop :=
  IsCross v n item r ∨ (r = n ∧ 0 < n ∧ IsCross v n item (n - 1) ∧ v.get n < item)

theorem lBinaryLoop_near (v : Arr Int) (item : Int) (n : Nat) (hv : SortedArr v n) (hn : n < v.size) (fuel : Nat) :
    ∀ (e1 e2 : Int) (eh : Option Int), 0 ≤ e1 → e1 ≤ e2 → e2 ≤ n → (e2 - e1 + 2).toNat < fuel →
      (∀ i : Nat, (i : Int) < e1 → i < n → v.get i < item) →
      (e2 = n ∨ item ≤ v.get e2.toNat) →
    ∃ r : Nat, lBinaryLoop v item fuel e1 e2 eh = some (r : Int) ∧ NearCross v n item r := by
  induction fuel with
  | zero => intro e1 e2 eh _ _ _ h; omega
  | succ fuel ih =>
    intro e1 e2 eh h0 h12 h2n hf hlo hhi
    unfold lBinaryLoop
    rw [if_pos (by omega)]
    have hdiv : (e2 - e1).tdiv 2 = (e2 - e1) / 2 := Int.tdiv_eq_ediv_of_nonneg (by omega)
    simp only [hdiv]
    obtain ⟨m, hm⟩ : ∃ m, m = e2 - (e2 - e1) / 2 := ⟨_, rfl⟩
    rw [← hm]
    have m1 : e1 ≤ m := by omega
    have m2 : m ≤ e2 := by omega
    by_cases hz : m = 0
    · rw [if_pos hz]
      refine ⟨0, by rw [hz]; rfl, Or.inl ⟨by omega, fun i hi => by omega, ?_⟩⟩
      have : e2 = 0 := by omega
      subst this
      intro hpos
      rcases hhi with h | h
      · omega
      · exact h
    rw [if_neg hz, readI_nat (by omega) (by omega), readI_nat (by omega) (by omega)]
    simp only [Option.bind_eq_bind, Option.bind_some]
    have stop : m = n → v.get m.toNat < item → NearCross v n item n →
        ∃ r : Nat, lBinaryLoop v item fuel (m + 1) e2 (some m) = some (r : Int) ∧ NearCross v n item r := by
      intro hmn _ hc
      cases fuel with
      | zero => omega
      | succ fuel =>
        unfold lBinaryLoop
        rw [if_neg (by omega)]
        exact ⟨n, by rw [hmn], hc⟩
    by_cases ha : v.get (m - 1).toNat < item
    · rw [if_pos ha]
      have below : ∀ i, i < m.toNat → v.get i < item := by
        intro i hi
        have := hv i (m - 1).toNat (by omega) (by omega)
        omega
      by_cases hb : v.get m.toNat ≥ item
      · rw [if_pos hb]
        exact ⟨m.toNat, by rw [Int.toNat_of_nonneg (by omega)], Or.inl ⟨by omega, below, fun _ => hb⟩⟩
      · rw [if_neg hb]
        by_cases hmn : m = n
        · exact stop hmn (by omega) (Or.inl ⟨Nat.le_refl _, fun i hi => below i (by omega), fun h => absurd h (Nat.lt_irrefl _)⟩)
        · by_cases he : e2 = m
          · rcases hhi with h | h
            · omega
            · rw [he] at h; omega
          · refine ih (m + 1) e2 (some m) (by omega) (by omega) h2n (by omega) ?_ hhi
            intro i hi _
            rcases Nat.lt_or_ge i m.toNat with h | h
            · exact below i h
            · have : i = m.toNat := by omega
              rw [this]; omega
    · rw [if_neg ha]
      have hne : e1 ≤ m - 1 := by
        rcases Int.lt_or_le (m - 1) e1 with h | h
        · exact absurd (hlo (m - 1).toNat (by omega) (by omega)) ha
        · exact h
      by_cases hb : v.get m.toNat ≥ item
      · rw [if_pos hb]
        exact ih e1 (m - 1) (some m) h0 hne (by omega) (by omega) hlo (Or.inr (by omega))
      · rw [if_neg hb]
        by_cases hmn : m = n
        · refine stop hmn (by omega) (Or.inr ⟨rfl, by omega, ⟨by omega, fun i hi => hlo i (by omega) (by omega), ?_⟩, ?_⟩)
          · intro _
            have : n - 1 = (m - 1).toNat := by omega
            rw [this]; omega
          · have : n = m.toNat := by omega
            rw [this]; omega
        · have := hv (m - 1).toNat m.toNat (by omega) (by omega)
          omega

theorem lBinarySearch_near (v : Arr Int) (item : Int) (n : Nat) (hv : SortedArr v n) (hn : n < v.size) :
    ∃ r : Nat, lBinarySearch (n + 3) 0 n v item = some (r : Int) ∧ NearCross v n item r :=
  lBinaryLoop_near v item n hv hn (n + 3) 0 n none (by omega) (by omega) (by omega) (by omega)
    (fun i hi => by omega) (Or.inl rfl)

theorem IsCross.unique {v : Arr Int} {n : Nat} {item : Int} {r r' : Nat} (h : IsCross v n item r) (h' : IsCross v n item r') :
    r = r' := by
  rcases Nat.lt_trichotomy r r' with h1 | h1 | h1
  · have := h'.2.1 r h1
    have := h.2.2 (by have := h'.1; omega)
    omega
  · exact h1
  · have := h.2.1 r' h1
    have := h'.2.2 (by have := h.1; omega)
    omega

theorem IsCross.mono {v : Arr Int} {n : Nat} {item item' : Int} {r r' : Nat} (h : IsCross v n item r)
    (h' : IsCross v n item' r') (hi : item ≤ item') : r ≤ r' := by
  rcases Nat.lt_or_ge r' r with h1 | h1
  · have := h.2.1 r' h1
    have := h'.2.2 (by have := h.1; omega)
    omega
  · exact h1

/-- If the search ends behind the right position, then so does the search for a larger key with the same right position. -/
theorem near_same {v : Arr Int} {n : Nat} (hn : n < v.size) (hs : v.size = n + 1) {item item' : Int} (hi : item ≤ item')
    {r r' : Nat} (h1 : lBinarySearch (n + 3) 0 n v item = some (r : Int))
    (h2 : lBinarySearch (n + 3) 0 n v item' = some (r' : Int))
    (hr : r = n ∧ 0 < n ∧ IsCross v n item (n - 1) ∧ v.get n < item) (h' : NearCross v n item' r') : r' = n := by
  obtain ⟨rfl, hpos, hc, hx⟩ := hr
  rcases h' with h' | h'
  · rcases Nat.lt_or_ge r' r with hlt | hge
    · have hm := hc.mono h' hi
      have e : r' = r - 1 := by omega
      subst e
      have : lBinarySearch (r + 3) 0 r v item = lBinarySearch (r + 3) 0 r v item' := by
        refine lBinaryLoop_congr ?_ _ _ _ _
        intro k hk
        rcases Nat.lt_trichotomy k (r - 1) with h3 | h3 | h3
        · exact ⟨fun _ => h'.2.1 k h3, fun _ => hc.2.1 k h3⟩
        · have a1 := hc.2.2 (by omega)
          have a2 := h'.2.2 (by omega)
          rw [← h3] at a1 a2
          exact ⟨fun _ => by omega, fun _ => by omega⟩
        · have : k = r := by omega
          subst this
          exact ⟨fun _ => by omega, fun _ => hx⟩
      rw [this, h2] at h1
      injection h1 with h1
      omega
    · have := h'.1
      omega
  · exact h'.1

/-- The search in an array of one element, if the number behind is too small. -/
theorem lBinarySearch_lost {v : Arr Int} {n : Nat} (hn : 0 < n) (hs : v.size = n + 1) (h1 : n = 1) {item : Int}
    (hx : v.get 1 < item) : lBinarySearch (n + 3) 0 n v item = some 1 := by
  subst h1
  unfold lBinarySearch lBinaryLoop
  rw [if_pos (by decide)]
  have e : (((1 : Nat) : Int) - (((1 : Nat) : Int) - 0).tdiv 2) = 1 := by decide
  have r0 : readI v (1 - 1) = some (v.get 0) := readI_nat (by omega) (by omega)
  have r1 : readI v 1 = some (v.get 1) := readI_nat (by omega) (by omega)
  simp only [e, r0, r1, Option.bind_eq_bind, Option.bind_some]
  rw [if_neg (by decide)]
  have h2 : lBinaryLoop v item (1 + 2) (1 + 1) ((1 : Nat) : Int) (some 1) = some 1 := by
    unfold lBinaryLoop
    rw [if_neg (by decide)]
  rw [if_neg (show ¬ v.get 1 ≥ item by omega), if_neg (show ¬ v.get 1 ≥ item by omega), h2, ite_self]

/-- The partitions, whatever number is behind the array. -/
theorem cooParts_any {v : Arr Int} {n : Nat} (hs : SortedArr v n) (hsz : v.size = n + 1) (hv : ∀ k, k < n → 1 ≤ v.get k)
    (g : Nat → Nat) (m : Nat) {np : Nat} (hnp : 0 < np) (rpp : Nat) :
    ∃ ps, cooParts (lBinarySearch (n + 3) 0 n v) g m np rpp n = some ps ∧ ps.size = np + 1 ∧
      (n ≠ 1 ∨ 1 ≤ v.get n → ps.get 0 = 0) ∧ ps.get np = n ∧
      (∀ p, p < np → ps.get p ≤ ps.get (p + 1)) ∧
      ∀ p, p < np → lBinarySearch (n + 3) 0 n v (((min (p * rpp) m : Nat) : Int) + 1) = some ((ps.get p : Nat) : Int) ∧
        NearCross v n (((min (p * rpp) m : Nat) : Int) + 1) (ps.get p) := by
  have hsearch := fun item => lBinarySearch_near v item n hs (by omega)
  unfold cooParts
  simp only [Option.bind_eq_bind]
  obtain ⟨ps, h1, h2, h3⟩ := forLoop_inv (σ := Arr Nat) (lo := 0) (hi := np) (s := ⟨np + 1, g⟩)
    (body := fun p ps => (lBinarySearch (n + 3) 0 n v (((min (p * rpp) m : Nat) : Int) + 1)).bind fun s =>
      (lBinarySearch (n + 3) 0 n v (((min ((p + 1) * rpp) m : Nat) : Int) + 1)).bind fun _ =>
      (natIdx s).bind fun s => ps.write p s)
    (fun p ps => ps.size = np + 1 ∧ ∀ q, q < p →
      lBinarySearch (n + 3) 0 n v (((min (q * rpp) m : Nat) : Int) + 1) = some ((ps.get q : Nat) : Int) ∧
        NearCross v n (((min (q * rpp) m : Nat) : Int) + 1) (ps.get q))
    (by omega) ⟨rfl, fun q hq => by omega⟩ (by
      intro p ps _ hp hinv
      obtain ⟨r, r1, r2⟩ := hsearch (((min (p * rpp) m : Nat) : Int) + 1)
      obtain ⟨r', r1', _⟩ := hsearch (((min ((p + 1) * rpp) m : Nat) : Int) + 1)
      rw [r1, Option.bind_some, r1', Option.bind_some, natIdx_nat, Option.bind_some, Arr.write_some (by omega)]
      refine ⟨_, rfl, hinv.1, ?_⟩
      intro q hq
      by_cases he : q = p
      · subst he; rw [Arr.upd_get_self]; exact ⟨r1, r2⟩
      · rw [Arr.upd_get_ne _ _ he]; exact hinv.2 q (by omega))
  rw [h1, Option.bind_some, Arr.write_some (by omega)]
  have hget : ∀ p, p < np → (ps.upd np n).get p = ps.get p := fun p hp => Arr.upd_get_ne _ _ (by omega)
  have hle : ∀ p, p < np → ps.get p ≤ n := by
    intro p hp
    rcases (h3 p hp).2 with h | h
    · exact h.1
    · omega
  refine ⟨_, rfl, h2, ?_, Arr.upd_get_self _ _ _, ?_, ?_⟩
  · intro hn
    rw [hget 0 hnp]
    rcases (h3 0 hnp).2 with h4 | ⟨_, h4, h5, h6⟩
    · rcases Nat.eq_zero_or_pos (ps.get 0) with h | h
      · exact h
      · have := h4.2.1 0 h
        have := hv 0 (by have := h4.1; omega)
        simp at *
        omega
    · exfalso
      simp only [Nat.zero_mul, Nat.zero_min] at h5 h6
      rcases Nat.lt_or_ge 1 n with h7 | h7
      · have := h5.2.1 0 (by omega)
        have := hv 0 (by omega)
        omega
      · rcases hn with hn | hn <;> omega
  · intro p hp
    rw [hget p hp]
    by_cases he : p + 1 = np
    · rw [he, Arr.upd_get_self]; exact hle p hp
    · rw [Arr.upd_get_ne _ _ he]
      have a1 := h3 p hp
      have a2 := h3 (p + 1) (by omega)
      have hmin : ((min (p * rpp) m : Nat) : Int) + 1 ≤ ((min ((p + 1) * rpp) m : Nat) : Int) + 1 := by
        rw [Nat.add_mul]; omega
      rcases a1.2 with c1 | c1
      · rcases a2.2 with c2 | c2
        · exact c1.mono c2 hmin
        · rw [c2.1]; exact c1.1
      · have := near_same (by omega) hsz hmin a1.1 a2.1 c1 a2.2
        rw [this]; exact hle p hp
  · intro p hp
    rw [hget p hp]
    exact h3 p hp

/-- **COO tiles**: where the memory behind `ia` is readable, the constructor stores the edges in sorted order, and different
partitions belong to different words.  Every edge is in a partition if there are several edges or the number behind `ia` is
positive. -/
theorem COO.build_any (x : Int) (g : FmtFresh E) {threads : Nat} (ht : 0 < threads)
    {sort : List (Edge E) → List (Edge E)} (hsort : SortsBy compareSrcDst sort)
    {edges : List (Edge E)} {m n rs cs : Nat} (hin : ∀ e ∈ edges, InTile m n rs cs e) (d : Edge E)
    (hlen : 0 < edges.length) :
    ∃ t, COO.build (some x) g threads sort edges m n rs cs = some t ∧ t.m = m ∧ t.n = n ∧
      t.nnz = (sort edges).length ∧ t.Ok (entOf rs cs d (sort edges)) ∧ ((edges.length = 1 → 1 ≤ x) → t.Parts) ∧ t.Apart ∧
      (edges.length = 1 → x ≤ 0 → t.ps.size = t.np + 1 ∧ ∀ p, p ≤ t.np → t.ps.get p = 1) := by
  unfold COO.build
  simp only [Option.bind_eq_bind]
  rw [if_pos hlen]
  have hperm := (hsort edges).1
  have hlen' : 0 < (sort edges).length := by rw [hperm.length_eq]; exact hlen
  have hin' : ∀ e ∈ sort edges, InTile m n rs cs e := fun e he => hin e (hperm.mem_iff.mp he)
  have hss := @sorted_src E sort hsort edges
  rw [← hperm.length_eq]
  obtain ⟨es, hes⟩ : ∃ es, es = sort edges := ⟨_, rfl⟩
  rw [← hes] at hlen' hin' ⊢
  have hss : ∀ i j (hij : i ≤ j) (hj : j < es.length), es[i].src ≤ es[j].src := by
    intro i j hij hj
    subst hes
    exact hss hij hj
  obtain ⟨a, ja, ia, f1, f2, f3, f4, f5, f6, f7⟩ := coo_fill g hin' hss d
  rw [f1, Option.bind_some, f2, Option.bind_some, f3, Option.bind_some, if_neg (by omega)]
  have hseen : ∀ k, k < es.length → (ia.seen (some x)).get k = ia.get k := fun k hk => Arr.seen_get ia (some x) (by omega)
  have hs : SortedArr (ia.seen (some x)) es.length := by
    intro i j hij hj
    rw [hseen i (by omega), hseen j hj]
    exact f5 i j hij (by omega)
  have hsz : (ia.seen (some x)).size = es.length + 1 := by rw [Arr.seen_some_size]; omega
  have hend : (ia.seen (some x)).get es.length = x := by
    show (if es.length = ia.size then x else ia.get es.length) = x
    rw [if_pos f4.symm]
  have h1 : ∀ k, k < es.length → 1 ≤ ia.get k := by
    intro k hk
    rw [f6 k hk]
    have := (hin' _ (List.getElem_mem hk)).1
    omega
  obtain ⟨ps, p1, p2, p3, p4, p5, p6⟩ := cooParts_any (v := ia.seen (some x)) (n := es.length) hs hsz (by
      intro k hk
      rw [hseen k hk]
      exact h1 k hk) (g.nats 4) m (np := threads * 4) (by omega) (((m + threads * 4 - 1) / (threads * 4) + 31) / 32 * 32)
  rw [p1, Option.bind_some]
  refine ⟨_, rfl, rfl, rfl, rfl, f7 _ _ _, fun hx => ⟨p2, p3 ?_, p4, p5⟩, ?_, ?_⟩
  rotate_left 2
  · intro h hx
    refine ⟨p2, ?_⟩
    intro p hp
    dsimp only at hp ⊢
    by_cases he : p = threads * 4
    · rw [he, p4, h]
    · have := (p6 p (by omega)).1
      rw [lBinarySearch_lost (by omega) hsz h (by rw [← h, hend]; omega)] at this
      injection this with this
      omega
  · rw [hend]
    by_cases h : es.length = 1
    · exact Or.inr (hx h)
    · exact Or.inl h
  have hr : 32 ∣ ((m + threads * 4 - 1) / (threads * 4) + 31) / 32 * 32 := Nat.dvd_mul_left _ _
  generalize ((m + threads * 4 - 1) / (threads * 4) + 31) / 32 * 32 = rpp at p6 hr
  obtain ⟨q, rfl⟩ := hr
  intro i j hij hj k l k1 k2 l1 l2
  dsimp only at hj k1 k2 l1 l2 ⊢
  have hle : ∀ p, p ≤ threads * 4 → ps.get p ≤ es.length := by
    intro p hp
    rw [← p4]; exact mono_le p5 hp (Nat.le_refl _)
  have hl := hle (j + 1) (by omega)
  have hk := hle (i + 1) (by omega)
  have hm1 : ia.get l ≤ (m : Int) := by
    rw [f6 l (by omega)]; have := (hin' _ (List.getElem_mem (show l < es.length by omega))).2.1; omega
  have hmn : i + 1 ≤ j := hij
  have hmul : (i + 1) * (32 * q) ≤ j * (32 * q) := Nat.mul_le_mul_right _ hmn
  refine ⟨h1 k (by omega), j * q, ?_, ?_⟩
  · have hi1 := p6 (i + 1) (by omega)
    rcases hi1.2 with c | c
    · have := c.2.1 k k2
      rw [hseen k (by omega)] at this
      rw [Nat.mul_left_comm 32 j q]
      omega
    · have hi2 := p6 j hj
      have := near_same (by omega) hsz (by omega) hi1.1 hi2.1 c hi2.2
      omega
  · have hi2 := p6 j hj
    have hc : ((min (j * (32 * q)) m : Nat) : Int) + 1 ≤ ia.get (ps.get j) := by
      rcases hi2.2 with c | c
      · have := c.2.2 (by omega)
        rw [hseen _ (by omega)] at this
        exact this
      · omega
    have := f5 (ps.get j) l l1 (by omega)
    rw [Nat.mul_left_comm 32 j q]
    omega

theorem COO.build_spec (x : Int) (g : FmtFresh E) {threads : Nat} (ht : 0 < threads)
    {sort : List (Edge E) → List (Edge E)} (hsort : SortsBy compareSrcDst sort)
    {edges : List (Edge E)} {m n rs cs : Nat} (hin : ∀ e ∈ edges, InTile m n rs cs e) (d : Edge E)
    (hlen : 0 < edges.length) (hx : edges.length = 1 → 1 ≤ x) :
    ∃ t, COO.build (some x) g threads sort edges m n rs cs = some t ∧ t.m = m ∧ t.n = n ∧
      t.nnz = (sort edges).length ∧ t.Ok (entOf rs cs d (sort edges)) ∧ t.Parts := by
  obtain ⟨t, h1, h2, h3, h4, h5, h6, _, _⟩ := COO.build_any x g ht hsort hin d hlen
  exact ⟨t, h1, h2, h3, h4, h5, h6 hx⟩

/-- The binary search for a number that is greater than all elements reads behind the array. -/
theorem lBinaryLoop_reads_behind (v : Arr Int) (item : Int) (hv : ∀ k, k < v.size → v.get k < item) (h0 : 0 < v.size) :
    ∀ (fuel : Nat) (e1 : Int) (eh : Option Int), 0 ≤ e1 → e1 ≤ v.size → lBinaryLoop v item fuel e1 v.size eh = none := by
  intro fuel
  induction fuel with
  | zero => intro e1 eh _ _; rfl
  | succ fuel ih =>
    intro e1 eh h1 h2
    unfold lBinaryLoop
    rw [if_pos (by omega)]
    have hdiv : ((v.size : Int) - e1).tdiv 2 = (v.size - e1) / 2 := Int.tdiv_eq_ediv_of_nonneg (by omega)
    simp only [hdiv]
    obtain ⟨m, hm⟩ : ∃ m, m = (v.size : Int) - (v.size - e1) / 2 := ⟨_, rfl⟩
    rw [← hm, if_neg (by omega), readI_nat (by omega) (by omega)]
    simp only [Option.bind_eq_bind, Option.bind_some]
    rw [if_pos (hv _ (by omega))]
    rcases Int.lt_or_le m v.size with h | h
    · rw [readI_nat (by omega) h, Option.bind_some]
      have := hv m.toNat (by omega)
      rw [if_neg (by omega)]
      exact ih (m + 1) (some m) (by omega) (by omega)
    · have : readI v m = none := by
        unfold readI Arr.read
        rw [if_pos (by omega), if_neg (by omega)]
      rw [this]; rfl

/-- In strict C++ the constructor has undefined behaviour for every non-empty tile. -/
theorem COO.build_none (g : FmtFresh E) {threads : Nat} (ht : 0 < threads)
    {sort : List (Edge E) → List (Edge E)} (hsort : SortsBy compareSrcDst sort)
    {edges : List (Edge E)} {m n rs cs : Nat} (hin : ∀ e ∈ edges, InTile m n rs cs e)
    (hlen : 0 < edges.length) :
    COO.build none g threads sort edges m n rs cs = none := by
  unfold COO.build
  simp only [Option.bind_eq_bind]
  rw [if_pos hlen]
  have hperm := (hsort edges).1
  have hlen' : 0 < (sort edges).length := by rw [hperm.length_eq]; exact hlen
  have hin' : ∀ e ∈ sort edges, InTile m n rs cs e := fun e he => hin e (hperm.mem_iff.mp he)
  have hss := @sorted_src E sort hsort edges
  obtain ⟨es, hes⟩ : ∃ es, es = sort edges := ⟨_, rfl⟩
  rw [← hes] at hlen' hin' ⊢
  have hss : ∀ i j (hij : i ≤ j) (hj : j < es.length), es[i].src ≤ es[j].src := by
    intro i j hij hj
    subst hes
    exact hss hij hj
  obtain ⟨a, ja, ia, f1, f2, f3, f4, f5, f6, _⟩ := coo_fill g hin' hss es[0]
  rw [f1, Option.bind_some, f2, Option.bind_some, f3, Option.bind_some, if_neg (by omega)]
  have hlast : ∀ fuel, lBinarySearch fuel 0 es.length (ia.seen none) ((m : Int) + 1) = none := by
    intro fuel
    have := lBinaryLoop_reads_behind ia ((m : Int) + 1) (by
      intro k hk
      rw [f6 k (by omega)]
      have := (hin' _ (List.getElem_mem (show k < es.length by omega))).2.1
      omega) (by omega) fuel 0 none (by omega) (by omega)
    rw [f4] at this
    exact this
  have hparts : cooParts (lBinarySearch (es.length + 3) 0 es.length (ia.seen none)) (g.nats 4) m (threads * 4)
      (((m + threads * 4 - 1) / (threads * 4) + 31) / 32 * 32) es.length = none := by
    unfold cooParts
    simp only [Option.bind_eq_bind]
    obtain ⟨k, hk⟩ : ∃ k, threads * 4 = k + 1 := ⟨threads * 4 - 1, by omega⟩
    have hc := parts_cover (m := m) (np := threads * 4) (by omega)
    rw [hk] at hc ⊢
    rw [forLoop_succ_right (by omega), Nat.min_eq_right hc, hlast]
    cases forLoop 0 k _ _ with
    | none => rfl
    | some s =>
      rw [Option.bind_some]
      cases lBinarySearch (es.length + 3) 0 es.length (ia.seen none) _ <;> rfl
  rw [hparts]; rfl

end GraphMat

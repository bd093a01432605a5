import Verif.Model.SaveVec
import Verif.Lemmas.VecList
import Verif.Lemmas.EdgeList
import Verif.Lemmas.Exchange

namespace GraphMat

variable {α β V : Type}

/-- The items with key `k`. -/
def bucketOf (k : Nat) (items : List (β × Nat)) : List β := (items.filter (fun it => it.2 == k)).map (·.1)

theorem bucketOf_cons_self (x : β) (k : Nat) (items : List (β × Nat)) :
    bucketOf k ((x, k) :: items) = x :: bucketOf k items := by simp [bucketOf]

theorem bucketOf_cons_ne {k q : Nat} (h : q ≠ k) (x : β) (items : List (β × Nat)) :
    bucketOf k ((x, q) :: items) = bucketOf k items := by simp [bucketOf, h]

theorem bucketOf_length (k : Nat) (items : List (β × Nat)) :
    (bucketOf k items).length = (items.map (·.2)).count k := by
  rw [bucketOf, List.length_map, ← List.countP_eq_length_filter, List.count, List.countP_map]
  rfl

theorem mem_bucketOf {k : Nat} {items : List (β × Nat)} {x : β} : x ∈ bucketOf k items ↔ (x, k) ∈ items := by
  unfold bucketOf
  rw [List.mem_map]
  constructor
  · rintro ⟨⟨y, q⟩, h, rfl⟩
    rw [List.mem_filter] at h
    have : q = k := by simpa using h.2
    subst this
    exact h.1
  · intro h
    exact ⟨(x, k), List.mem_filter.2 ⟨h, by simp⟩, rfl⟩

theorem countKeys_aux : ∀ (keys : List Nat) (c : Arr Nat), (∀ k, k ∈ keys → k < c.size) →
    ∃ c', keys.foldlM (fun (c : Arr Nat) k => do
      let x ← c.read k
      c.write k (x + 1)) c = some c' ∧ c'.size = c.size ∧ ∀ k, c'.get k = c.get k + keys.count k := by
  intro keys
  induction keys with
  | nil => intro c _; exact ⟨c, rfl, rfl, by simp⟩
  | cons a keys ih =>
    intro c h
    have ha := h a (by simp)
    obtain ⟨c', h1, h2, h3⟩ := ih (c.upd a (c.get a + 1)) (fun k hk => h k (by simp [hk]))
    refine ⟨c', ?_, h2, ?_⟩
    · rw [List.foldlM_cons, Arr.read_some ha]
      simp only [Option.bind_eq_bind, Option.bind_some]
      rw [Arr.write_some ha]
      exact h1
    · intro k
      rw [h3, List.count_cons]
      by_cases e : k = a
      · subst e; rw [Arr.upd_get_self]; simp; omega
      · rw [Arr.upd_get_ne _ _ e]
        have : (a == k) = false := by simpa using fun h => e h.symm
        simp [this]

theorem countKeys_spec {size : Nat} {keys : List Nat} (h : ∀ k, k ∈ keys → k < size) :
    ∃ c, countKeys size keys = some c ∧ c.size = size ∧ ∀ k, c.get k = keys.count k := by
  obtain ⟨c, h1, h2, h3⟩ := countKeys_aux keys ⟨size, fun _ => 0⟩ h
  exact ⟨c, h1, h2, by intro k; rw [h3]; simp⟩

theorem packMsgs_aux : ∀ (items : List (β × Nat)) (msgs : Arr (Arr β)) (offs : Arr Nat), offs.size = msgs.size →
    (∀ it, it ∈ items → it.2 < msgs.size) →
    (∀ r, r < msgs.size → offs.get r + (bucketOf r items).length ≤ (msgs.get r).size) →
    ∃ msgs' offs', items.foldlM (fun (st : Arr (Arr β) × Arr Nat) it => do
      let m ← st.1.read it.2
      let o ← st.2.read it.2
      let m' ← m.write o it.1
      let msgs ← st.1.write it.2 m'
      let offs ← st.2.write it.2 (o + 1)
      some (msgs, offs)) (msgs, offs) = some (msgs', offs') ∧ msgs'.size = msgs.size ∧
      ∀ r, r < msgs.size → (msgs'.get r).size = (msgs.get r).size ∧
        (msgs'.get r).pre (offs.get r + (bucketOf r items).length)
          = (msgs.get r).pre (offs.get r) ++ bucketOf r items := by
  intro items
  induction items with
  | nil => intro msgs offs _ _ _; exact ⟨msgs, offs, rfl, rfl, by simp [bucketOf]⟩
  | cons it items ih =>
    intro msgs offs hs hk hb
    obtain ⟨x, q⟩ := it
    have hq : q < msgs.size := hk (x, q) (by simp)
    have hbq := hb q hq
    rw [bucketOf_cons_self, List.length_cons] at hbq
    obtain ⟨m', o', h1, h2, h3⟩ := ih (msgs.upd q ((msgs.get q).upd (offs.get q) x)) (offs.upd q (offs.get q + 1))
      hs (fun it hit => hk it (by simp [hit])) (by
        intro r hr
        by_cases e : r = q
        · subst e
          rw [Arr.upd_get_self, Arr.upd_get_self, Arr.upd_size]
          omega
        · rw [Arr.upd_get_ne _ _ e, Arr.upd_get_ne _ _ e]
          have := hb r hr
          rwa [bucketOf_cons_ne (fun h => e h.symm)] at this)
    refine ⟨m', o', ?_, h2, ?_⟩
    · rw [List.foldlM_cons]
      simp only [Option.bind_eq_bind]
      rw [Arr.read_some hq]
      simp only [Option.bind_some]
      rw [Arr.read_some (by omega)]
      simp only [Option.bind_some]
      rw [Arr.write_some (by omega)]
      simp only [Option.bind_some]
      rw [Arr.write_some hq]
      simp only [Option.bind_some]
      rw [Arr.write_some (by omega)]
      exact h1
    · intro r hr
      obtain ⟨a1, a2⟩ := h3 r hr
      by_cases e : r = q
      · subst e
        rw [Arr.upd_get_self] at a1 a2
        rw [Arr.upd_get_self] at a2
        rw [Arr.pre_snoc] at a2
        rw [bucketOf_cons_self, List.length_cons]
        refine ⟨a1, ?_⟩
        have e1 : offs.get r + ((bucketOf r items).length + 1) = offs.get r + 1 + (bucketOf r items).length := by omega
        rw [e1, a2, List.append_assoc]
        rfl
      · rw [Arr.upd_get_ne _ _ e] at a1 a2
        rw [Arr.upd_get_ne _ _ e] at a2
        rw [bucketOf_cons_ne (fun h => e h.symm)]
        exact ⟨a1, a2⟩

theorem Arr.toList_pre (a : Arr β) : a.toList = a.pre a.size := rfl

theorem packMsgs_spec {size : Nat} {count : Arr Nat} {items : List (β × Nat)} (hsz : count.size = size)
    (hk : ∀ it, it ∈ items → it.2 < size) (hc : ∀ k, count.get k = (items.map (·.2)).count k) (g : Nat → Nat → β) :
    ∃ msgs offs, packMsgs g count items = some (msgs, offs) ∧ msgs.size = size ∧
      ∀ r, r < size → (msgs.get r).toList = bucketOf r items := by
  obtain ⟨m, o, h1, h2, h3⟩ := packMsgs_aux items ⟨count.size, fun r => ⟨count.get r, g r⟩⟩
    ⟨count.size, fun _ => 0⟩ rfl (by intro it hit; show it.2 < count.size; rw [hsz]; exact hk it hit) (by
      intro r _
      show 0 + (bucketOf r items).length ≤ count.get r
      rw [bucketOf_length, hc]; omega)
  refine ⟨m, o, h1, h2.trans hsz, ?_⟩
  intro r hr
  obtain ⟨a1, a2⟩ := h3 r (by show r < count.size; omega)
  have a1' : (m.get r).size = count.get r := a1
  rw [Arr.toList_pre, a1', hc, ← bucketOf_length]
  have a2' : (m.get r).pre (0 + (bucketOf r items).length) = _ ++ bucketOf r items := a2
  rw [Nat.zero_add] at a2'
  rw [a2']
  rfl

/-- Sum of the first values of a function. -/
def sumTo (f : Nat → Nat) : Nat → Nat
  | 0 => 0
  | k + 1 => sumTo f k + f k

theorem sumTo_mono {f : Nat → Nat} {j k : Nat} (h : j ≤ k) : sumTo f j ≤ sumTo f k := by
  induction k with
  | zero => obtain rfl : j = 0 := by omega
            exact Nat.le_refl _
  | succ k ih =>
    rcases Nat.lt_or_ge k j with h1 | h1
    · obtain rfl : j = k + 1 := by omega
      exact Nat.le_refl _
    · have := ih h1
      simp only [sumTo]; omega

theorem sumTo_congr {f g : Nat → Nat} {k : Nat} (h : ∀ i, i < k → f i = g i) : sumTo f k = sumTo g k := by
  induction k with
  | zero => rfl
  | succ k ih => simp only [sumTo]; rw [ih (fun i hi => h i (by omega)), h k (by omega)]

theorem sumTo_zero (k : Nat) : sumTo (fun _ => 0) k = 0 := by
  induction k with
  | zero => rfl
  | succ k ih => simp only [sumTo]; omega

theorem sumTo_add_one {f : Nat → Nat} {k q : Nat} (hq : q < k) :
    sumTo (fun i => f i + if q = i then 1 else 0) k = sumTo f k + 1 := by
  induction k with
  | zero => omega
  | succ k ih =>
    simp only [sumTo]
    by_cases e : q = k
    · subst e
      rw [sumTo_congr (g := f) (fun i hi => by rw [if_neg (by omega)]; omega)]
      simp; omega
    · rw [ih (by omega), if_neg e]; omega

theorem sumTo_bucket {k : Nat} : ∀ (items : List (β × Nat)), (∀ it, it ∈ items → it.2 < k) →
    sumTo (fun p => (bucketOf p items).length) k = items.length := by
  intro items
  induction items with
  | nil => intro _; simp [bucketOf, sumTo_zero]
  | cons it items ih =>
    intro h
    have ih := ih (fun x hx => h x (by simp [hx]))
    obtain ⟨x, q⟩ := it
    have hq : q < k := h (x, q) (by simp)
    rw [List.length_cons, ← ih, ← sumTo_add_one hq]
    apply sumTo_congr
    intro i _
    by_cases e : q = i
    · subst e; rw [bucketOf_cons_self]; simp
    · rw [bucketOf_cons_ne e, if_neg e]; rfl

theorem startNzs_spec {nseg : Nat} {counts : Arr Nat} (h : counts.size = nseg) (g : Nat → Nat) :
    ∃ a, startNzs nseg counts g = some a ∧ a.size = nseg + 1 ∧ ∀ k, k ≤ nseg → a.get k = sumTo counts.get k := by
  unfold startNzs
  obtain ⟨st, h1, h2, h3, h4⟩ := forLoop_inv (lo := 0) (hi := nseg) (s := ((⟨nseg + 1, g⟩ : Arr Nat), 0))
    (body := fun i st => do
      let a ← st.1.write i st.2
      let c ← counts.read i
      some (a, st.2 + c))
    (fun i (st : Arr Nat × Nat) => st.1.size = nseg + 1 ∧ st.2 = sumTo counts.get i ∧
      ∀ k, k < i → st.1.get k = sumTo counts.get k) (Nat.zero_le _) ⟨rfl, rfl, by intro k hk; omega⟩ (by
      intro i st _ hi ⟨e1, e2, e3⟩
      refine ⟨(st.1.upd i st.2, st.2 + counts.get i), ?_, e1, ?_, ?_⟩
      · rw [Arr.write_some (by omega)]
        simp only [Option.bind_eq_bind, Option.bind_some]
        rw [Arr.read_some (by omega)]; rfl
      · simp only [sumTo]; rw [e2]
      · intro k hk
        simp only
        by_cases e : k = i
        · subst e; rw [Arr.upd_get_self, e2]
        · rw [Arr.upd_get_ne _ _ e]; exact e3 k (by omega))
  rw [h1]
  simp only [Option.bind_eq_bind, Option.bind_some]
  rw [Arr.write_some (by omega)]
  refine ⟨_, rfl, h2, ?_⟩
  intro k hk
  by_cases e : k = nseg
  · subst e; rw [Arr.upd_get_self, h3]
  · rw [Arr.upd_get_ne _ _ e]; exact h4 k (by omega)

/-- `k` elements from position `s` on. -/
def Arr.part (a : Arr β) (s k : Nat) : List β := (List.range k).map (fun i => a.get (s + i))

theorem Arr.part_succ (a : Arr β) (s k : Nat) : a.part s (k + 1) = a.part s k ++ [a.get (s + k)] := by
  unfold Arr.part; rw [List.range_succ, List.map_append]; rfl

theorem Arr.part_congr {a b : Arr β} {s k : Nat} (h : ∀ i, i < k → a.get (s + i) = b.get (s + i)) :
    a.part s k = b.part s k := by
  unfold Arr.part
  apply List.map_congr_left
  intro i hi
  exact h i (List.mem_range.1 hi)

theorem Arr.slice_eq {a : Arr β} {s k : Nat} (h : s + k ≤ a.size) : a.slice s k = some (a.part s k) := by
  unfold Arr.slice Arr.part
  apply mapM_some
  intro i hi
  exact Arr.read_some (by have := List.mem_range.1 hi; omega)

theorem place_aux {nseg : Nat} {starts : Arr Nat} {T : Nat → Nat} (hst : ∀ p, p < nseg → starts.get p = sumTo T p)
    (hss : starts.size = nseg + 1) : ∀ (items : List (Edge α × Nat)) (edges : Arr (Edge α)) (counts : Arr Nat),
    counts.size = nseg → edges.size = sumTo T nseg → (∀ it, it ∈ items → it.2 < nseg) →
    (∀ p, p < nseg → counts.get p + (bucketOf p items).length = T p) →
    ∃ edges' counts', items.foldlM (fun (st : Arr (Edge α) × Arr Nat) it => do
      let s ← starts.read it.2
      let c ← st.2.read it.2
      let edges ← st.1.write (s + c) it.1
      let counts ← st.2.write it.2 (c + 1)
      some (edges, counts)) (edges, counts) = some (edges', counts') ∧ edges'.size = edges.size ∧
      counts'.size = nseg ∧ (∀ p, p < nseg → counts'.get p = T p) ∧
      ∀ p, p < nseg → edges'.part (sumTo T p) (T p) = edges.part (sumTo T p) (counts.get p) ++ bucketOf p items := by
  intro items
  induction items with
  | nil =>
    intro edges counts h1 h2 _ h4
    refine ⟨edges, counts, rfl, rfl, h1, ?_, ?_⟩
    · intro p hp; have := h4 p hp; simpa [bucketOf] using this
    · intro p hp
      have := h4 p hp
      have e : counts.get p = T p := by simpa [bucketOf] using this
      rw [e]; simp [bucketOf]
  | cons it items ih =>
    intro edges counts h1 h2 h3 h4
    obtain ⟨x, q⟩ := it
    have hq : q < nseg := h3 (x, q) (by simp)
    have hTq := h4 q hq
    rw [bucketOf_cons_self, List.length_cons] at hTq
    have hsum : sumTo T q + T q ≤ sumTo T nseg := by
      have : sumTo T (q + 1) ≤ sumTo T nseg := sumTo_mono hq
      exact this
    obtain ⟨e', c', a1, a2, a3, a4, a5⟩ := ih (edges.upd (sumTo T q + counts.get q) x)
      (counts.upd q (counts.get q + 1)) h1 h2 (fun it hit => h3 it (by simp [hit])) (by
        intro p hp
        by_cases e : p = q
        · subst e; rw [Arr.upd_get_self]; omega
        · rw [Arr.upd_get_ne _ _ e]
          have := h4 p hp
          rwa [bucketOf_cons_ne (fun h => e h.symm)] at this)
    refine ⟨e', c', ?_, a2, a3, a4, ?_⟩
    · rw [List.foldlM_cons]
      simp only [Option.bind_eq_bind]
      rw [Arr.read_some (by omega), hst q hq]
      simp only [Option.bind_some]
      rw [Arr.read_some (by omega)]
      simp only [Option.bind_some]
      rw [Arr.write_some (by omega)]
      simp only [Option.bind_some]
      rw [Arr.write_some (by omega)]
      exact a1
    · intro p hp
      rw [a5 p hp]
      by_cases e : p = q
      · subst e
        rw [Arr.upd_get_self, Arr.part_succ, Arr.upd_get_self, bucketOf_cons_self, List.append_assoc]
        congr 1
        apply Arr.part_congr
        intro i hi
        exact Arr.upd_get_ne _ _ (by omega)
      · rw [Arr.upd_get_ne _ _ e, bucketOf_cons_ne (fun h => e h.symm)]
        congr 1
        apply Arr.part_congr
        intro i hi
        apply Arr.upd_get_ne
        have hTp := h4 p hp
        rcases Nat.lt_or_ge p q with hlt | hge
        · have : sumTo T (p + 1) ≤ sumTo T q := sumTo_mono hlt
          simp only [sumTo] at this
          omega
        · have : sumTo T (q + 1) ≤ sumTo T p := sumTo_mono (by omega)
          simp only [sumTo] at this
          omega

/-- The counting sort puts the items of every segment into its slice, in order. -/
theorem sortBySegment {nseg : Nat} {items : List (Edge α × Nat)} (hk : ∀ it, it ∈ items → it.2 < nseg)
    (gs : Nat → Nat) (ge : Nat → Edge α) :
    ∃ counts starts placed, countKeys nseg (items.map (·.2)) = some counts ∧ startNzs nseg counts gs = some starts ∧
      placeBySegment nseg starts ge items = some placed ∧
      ∀ p, p < nseg → placed.2.read p = some (bucketOf p items).length ∧
        ∃ s, starts.read p = some s ∧ placed.1.slice s (bucketOf p items).length = some (bucketOf p items) := by
  obtain ⟨c, a1, a2, a3⟩ := countKeys_spec (size := nseg) (keys := items.map (·.2)) (by
    intro k hkk
    obtain ⟨it, hit, rfl⟩ := List.mem_map.1 hkk
    exact hk it hit)
  obtain ⟨s, b1, b2, b3⟩ := startNzs_spec a2 gs
  have hT : ∀ p, c.get p = (bucketOf p items).length := by
    intro p; rw [a3, bucketOf_length]
  have hTf : c.get = fun p => (bucketOf p items).length := funext hT
  have hlen : sumTo c.get nseg = items.length := by rw [hTf]; exact sumTo_bucket items hk
  obtain ⟨e', c', d1, d2, d3, d4, d5⟩ := place_aux (T := c.get) (fun p hp => b3 p (by omega)) b2 items
    ⟨items.length, ge⟩ ⟨nseg, fun _ => 0⟩ rfl hlen.symm hk (by
      intro p _
      show 0 + _ = _
      rw [hT]; omega)
  refine ⟨c, s, (e', c'), a1, b1, d1, ?_⟩
  intro p hp
  refine ⟨by rw [Arr.read_some (by show p < c'.size; omega)]; simp only; rw [d4 p hp, hT], s.get p,
    Arr.read_some (by omega), ?_⟩
  have hsum : sumTo c.get (p + 1) ≤ sumTo c.get nseg := sumTo_mono hp
  simp only [sumTo] at hsum
  rw [b3 p (by omega), Arr.slice_eq]
  · rw [← hT, d5 p hp]
    rfl
  · simp only; rw [d2, ← hT]; show _ ≤ items.length; omega

/-! ### Filling and saving a segment -/

theorem ingest_fold {cap st : Nat} : ∀ (es : List (Edge α)) (value : Arr α) (bits : Arr Word), value.size = cap →
    bits.size = (cap + 31) / 32 → (∀ i, cap ≤ i → i / 32 < bits.size → bitAt bits i = false) →
    (∀ e, e ∈ es → (st : Int) + 1 ≤ e.src ∧ e.src ≤ st + cap) →
    ∃ value' bits', es.foldlM (fun (s : Arr α × Arr Word) e => do
      let src ← natIdx (e.src - (st : Int) - 1)
      let bits ← setBitvector src s.2
      let value ← s.1.write src e.val
      some (value, bits)) (value, bits) = some (value', bits') ∧ value'.size = cap ∧ bits'.size = (cap + 31) / 32 ∧
      (∀ i, cap ≤ i → i / 32 < bits'.size → bitAt bits' i = false) ∧
      (∀ i : Nat, (∃ e, e ∈ es ∧ e.src = st + i + 1) → bitAt bits' i = true ∧
        ∃ e, e ∈ es ∧ e.src = st + i + 1 ∧ value'.get i = e.val) ∧
      (∀ i : Nat, (∀ e, e ∈ es → e.src ≠ st + i + 1) → bitAt bits' i = bitAt bits i ∧ value'.get i = value.get i) := by
  intro es
  induction es with
  | nil => intro value bits h1 h2 h3 _; exact ⟨value, bits, rfl, h1, h2, h3, by simp, by simp⟩
  | cons e es ih =>
    intro value bits h1 h2 h3 h4
    obtain ⟨p1, p2⟩ := h4 e (by simp)
    obtain ⟨j, hj, hjc⟩ : ∃ j : Nat, e.src = st + j + 1 ∧ j < cap := ⟨(e.src - st - 1).toNat, by omega, by omega⟩
    have hidx : natIdx (e.src - (st : Int) - 1) = some j := by
      unfold natIdx; rw [if_pos (by omega)]; congr 1; omega
    obtain ⟨b1, q1, q2, q3, _⟩ := setBitvector_spec (bv := bits) (i := j) (by omega)
    obtain ⟨v', b', a1, a2, a3, a4, a5, a6⟩ := ih (value.upd j e.val) b1 h1 (by omega) (by
      intro i hi hi2
      rw [q3, if_neg (by omega)]
      exact h3 i hi (by omega)) (fun x hx => h4 x (by simp [hx]))
    refine ⟨v', b', ?_, a2, a3, a4, ?_, ?_⟩
    · rw [List.foldlM_cons, hidx]
      simp only [Option.bind_eq_bind, Option.bind_some]
      rw [q1]
      simp only [Option.bind_some]
      rw [Arr.write_some (by omega)]
      exact a1
    · intro i hi
      by_cases hlater : ∃ x, x ∈ es ∧ x.src = st + i + 1
      · obtain ⟨r1, x, r2, r3, r4⟩ := a5 i hlater
        exact ⟨r1, x, by simp [r2], r3, r4⟩
      · obtain ⟨x, hx, hxs⟩ := hi
        rcases List.mem_cons.1 hx with rfl | hx
        · have : i = j := by omega
          subst this
          obtain ⟨r1, r2⟩ := a6 i (fun y hy hys => hlater ⟨y, hy, hys⟩)
          refine ⟨by rw [r1, q3, if_pos rfl], x, by simp, hxs, by rw [r2, Arr.upd_get_self]⟩
        · exact absurd ⟨x, hx, hxs⟩ hlater
    · intro i hi
      obtain ⟨r1, r2⟩ := a6 i (fun x hx => hi x (by simp [hx]))
      have hne : i ≠ j := by
        intro h; subst h; exact hi e (by simp) hj
      exact ⟨by rw [r1, q3, if_neg hne], by rw [r2, Arr.upd_get_ne _ _ hne]⟩

/-- Filling a segment: indices that occur in the list get the value of an edge with that index, others keep theirs. -/
theorem Segment.ingestEdges_spec {s : Segment α} (h : s.WF) (g : Fresh α) {st : Nat} {es : List (Edge α)}
    (hes : ∀ e, e ∈ es → (st : Int) + 1 ≤ e.src ∧ e.src ≤ st + s.capacity) :
    ∃ s', s.ingestEdges g es (st : Int) = some s' ∧ s'.WF ∧ s'.Ready ∧ s'.capacity = s.capacity ∧
      (∀ i : Nat, (∃ e, e ∈ es ∧ e.src = st + i + 1) → ∃ e, e ∈ es ∧ e.src = st + i + 1 ∧ s'.view i = some e.val) ∧
      (∀ i : Nat, (∀ e, e ∈ es → e.src ≠ st + i + 1) → s'.view i = s.view i) := by
  obtain ⟨b, hb, hu, hd, ht, hv, _⟩ := s.alloc_initialize h g
  unfold Segment.ingestEdges
  rw [hb]
  simp only [Option.bind_eq_bind, Option.bind_some]
  obtain ⟨v', b', a1, a2, a3, a4, a5, a6⟩ := ingest_fold (cap := s.capacity) (st := st) es b.value b.bits hd.value
    (by rw [hd.bits, h.ni]) ht hes
  simp only [Option.bind_eq_bind] at a1
  rw [a1]
  simp only [Option.bind_some]
  refine ⟨_, rfl, ?_, ⟨_, rfl, rfl⟩, rfl, ?_, ?_⟩
  · apply h.congr_props
    · exact ⟨a2, by rw [h.ni]; exact a3, hd.cdata, hd.cidx⟩
    · intro _ i hi hi2
      exact a4 i hi hi2
  · intro i hi
    obtain ⟨r1, e, r2, r3, r4⟩ := a5 i hi
    refine ⟨e, r2, r3, ?_⟩
    simp only [Segment.view]
    rw [Buffer.view_of_init rfl]
    have := hes e r2
    rw [if_pos ⟨by simp only; omega, r1⟩, r4]
  · intro i hi
    obtain ⟨r1, r2⟩ := a6 i hi
    rw [← hv]
    simp only [Segment.view]
    rw [Buffer.view_of_init rfl, Buffer.view_of_init hu, r1, r2, a2, hd.value]

theorem Segment.save_spec {s : Segment α} (h : s.WF) {f : Nat → α} (hv : ∀ i, i < s.capacity → s.view i = some (f i))
    (st m : Nat) (hdr : Bool) :
    s.save st m hdr = some (if hdr then some (m, s.capacity) else none,
      (List.range s.capacity).map (fun i => (i + st, f i))) := by
  unfold Segment.save
  rw [Segment.computeNnz_spec h]
  have hc : (List.range s.capacity).countP (fun i => (s.view i).isSome) = s.capacity := by
    rw [List.countP_eq_length.2]
    · simp
    · intro i hi; rw [hv i (List.mem_range.1 hi)]; rfl
  rw [hc]
  simp only [Option.bind_eq_bind, Option.bind_some]
  rw [forLoop_append (F := fun i => [(i + st, f i)]) (Nat.zero_le _)]
  · simp only [Option.bind_some, List.nil_append, Nat.sub_zero]
    rw [← List.range_eq_range']
    congr 2
    generalize List.range s.capacity = l
    induction l with
    | nil => rfl
    | cons a l ih => rw [List.flatMap_cons, ih]; rfl
  · intro i _ hi a
    have hvi := hv i hi
    unfold Segment.view at hvi
    cases hb : s.props with
    | none => rw [hb] at hvi; cases hvi
    | some b =>
      rw [hb] at hvi
      obtain ⟨_, h2, h3, h4⟩ := Buffer.view_some.1 hvi
      have hd := h.dims b hb
      simp only [Option.bind_some]
      rw [getBitvector_eq (by rw [hd.bits, h.ni]; exact word_lt hi)]
      simp only [Option.bind_some]
      rw [if_pos h3, Arr.read_some h2, h4]
      rfl

/-! ### The redistribution -/

theorem SpVec.packEdges_spec {n nseg nrank me : Nat} {v : SpVec α} (h : v.WF n nseg nrank me) (hs : 0 < nseg)
    (hr : 0 < nrank) (g : Nat → Nat → Edge α) {es : List (Edge α)}
    (hes : ∀ e, e ∈ es → 1 ≤ e.src ∧ e.src ≤ n) :
    v.packEdges g es = some ((List.range nrank).map (fun r =>
      es.filter (fun e => decide (ownerOf n nseg nrank e.src.toNat = r)))) := by
  unfold SpVec.packEdges
  rw [h.hn, h.hseg, h.hrank]
  have e1 : es.mapM (fun e => do
      let tile ← getPartition n nseg e.src
      let o ← segOwner nrank tile
      some (e, o)) = some (es.map (fun e => (e, ownerOf n nseg nrank e.src.toNat))) := by
    apply mapM_some
    intro e he
    obtain ⟨p1, p2⟩ := hes e he
    obtain ⟨w, hw⟩ : ∃ w : Nat, e.src = w := ⟨e.src.toNat, by omega⟩
    obtain ⟨p, hp, _⟩ := locate (n := n) (nseg := nseg) (w := w) hs (by omega) (by omega)
    rw [hw, hp]
    simp only [Option.bind_eq_bind, Option.bind_some]
    rw [segOwner_eq hr]
    simp only [Option.bind_some, Int.toNat_natCast]
    rw [ownerOf_of hp]
  rw [e1]
  simp only [Option.bind_eq_bind, Option.bind_some]
  have hlt : ∀ it, it ∈ es.map (fun e => (e, ownerOf n nseg nrank e.src.toNat)) → it.2 < nrank := by
    intro it hit
    obtain ⟨e, he, rfl⟩ := List.mem_map.1 hit
    obtain ⟨p1, p2⟩ := hes e he
    exact ownerOf_lt hs hr (by omega) (by omega)
  obtain ⟨c, a1, a2, a3⟩ := countKeys_spec (size := nrank)
    (keys := (es.map (fun e => (e, ownerOf n nseg nrank e.src.toNat))).map (·.2)) (by
      intro k hk
      obtain ⟨it, hit, rfl⟩ := List.mem_map.1 hk
      exact hlt it hit)
  rw [a1]
  simp only [Option.bind_some]
  obtain ⟨m, o, b1, b2, b3⟩ := packMsgs_spec a2 hlt a3 g
  rw [b1]
  simp only [Option.bind_some]
  apply mapM_some
  intro r hrr
  have hrr := List.mem_range.1 hrr
  rw [Arr.read_some (by omega)]
  simp only [Option.bind_some]
  rw [b3 r hrr]
  congr 1
  unfold bucketOf
  clear e1 hlt a1 a3 b1 b3
  induction es with
  | nil => rfl
  | cons e es ih =>
    have ih := ih (fun x hx => hes x (by simp [hx]))
    rw [List.map_cons, List.filter_cons, List.filter_cons]
    by_cases q : ownerOf n nseg nrank e.src.toNat = r
    · rw [if_pos (by simpa using q), if_pos (by simpa using q), List.map_cons, ih]
    · rw [if_neg (by simpa using q), if_neg (by simpa using q), ih]

theorem SpVec.ingestReceived_spec {n nseg nrank me : Nat} {v : SpVec α} (h : v.WF n nseg nrank me) (hr : 0 < nrank)
    (g : IngestFresh α) {recv : List (Edge α)} {P : Nat → α}
    (hrecv : ∀ e, e ∈ recv → ∃ w p : Nat, e.src = w ∧ e.val = P w ∧ getPartition n nseg w = some p ∧ p % nrank = me)
    (hall : ∀ w p : Nat, getPartition n nseg w = some p → p % nrank = me → ∃ e, e ∈ recv ∧ e.src = w) :
    ∃ v', v.ingestReceived g recv = some v' ∧ v'.WF n nseg nrank me ∧
      ∀ p, p < nseg → p % nrank = me → ∀ i, i < bnd n nseg (p + 1) - bnd n nseg p →
        (v'.segs.get p).view i = some (P (bnd n nseg p + i + 1)) := by
  unfold SpVec.ingestReceived
  rw [h.hn, h.hseg]
  have e1 : recv.mapM (fun e => do
      let tile ← getPartition n nseg e.src
      let own ← v.owns tile
      if own then some (e, tile) else none) = some (recv.map (fun e => (e, (getPartition n nseg e.src).getD 0))) := by
    apply mapM_some
    intro e he
    obtain ⟨w, p, h1, h2, h3, h4⟩ := hrecv e he
    rw [h1, h3]
    simp only [Option.bind_eq_bind, Option.bind_some]
    rw [h.owns hr]
    simp [h4]
  rw [e1]
  simp only [Option.bind_eq_bind, Option.bind_some]
  have hk : ∀ it, it ∈ recv.map (fun e => (e, (getPartition n nseg e.src).getD 0)) → it.2 < nseg := by
    intro it hit
    obtain ⟨e, he, rfl⟩ := List.mem_map.1 hit
    obtain ⟨w, p, h1, h2, h3, h4⟩ := hrecv e he
    simp only
    rw [h1, h3]
    exact (getPartition_some h3).1
  have hmem : ∀ {p : Nat} {e : Edge α}, p < nseg →
      (e ∈ bucketOf p (recv.map (fun e => (e, (getPartition n nseg e.src).getD 0))) ↔
        e ∈ recv ∧ getPartition n nseg e.src = some p) := by
    intro p e hp
    rw [mem_bucketOf, List.mem_map]
    constructor
    · rintro ⟨x, hx, hxe⟩
      have hx1 : x = e := congrArg Prod.fst hxe
      have hx2 : (getPartition n nseg x.src).getD 0 = p := congrArg Prod.snd hxe
      subst hx1
      obtain ⟨w, q, h1, h2, h3, h4⟩ := hrecv x hx
      refine ⟨hx, ?_⟩
      rw [h1, h3] at hx2 ⊢
      exact congrArg some hx2
    · rintro ⟨h1, h2⟩
      exact ⟨e, h1, by rw [h2]; rfl⟩
  generalize hI : recv.map (fun e => (e, (getPartition n nseg e.src).getD 0)) = items at hk hmem
  obtain ⟨counts, starts, placed, a1, a2, a3, a4⟩ := sortBySegment hk g.starts g.edges
  rw [a1]
  simp only [Option.bind_some]
  rw [a2]
  simp only [Option.bind_some]
  rw [a3]
  simp only [Option.bind_some]
  obtain ⟨v', b1, b2, b3, _⟩ := SpVec.forOwned_spec h hr (f := fun j s =>
      (placed.2.read j).bind fun nnz => (starts.read j).bind fun start =>
        if nnz > 0 then (placed.1.slice start nnz).bind fun es => (v.startId j).bind fun row =>
          s.ingestEdges (g.seg j) es row
        else some s)
    (P := fun p s' => ∀ i, i < bnd n nseg (p + 1) - bnd n nseg p → s'.view i = some (P (bnd n nseg p + i + 1))) (by
      intro p hp hpm
      obtain ⟨c1, s, c2, c3⟩ := a4 p hp
      rw [c1, c2]
      simp only [Option.bind_some]
      have hbm : ∀ e, e ∈ bucketOf p items → ∃ w : Nat, e.src = w ∧ e.val = P w ∧ bnd n nseg p < w ∧
          w ≤ bnd n nseg (p + 1) := by
        intro e he
        obtain ⟨d1, d2⟩ := (hmem hp).1 he
        obtain ⟨w, q, h1, h2, h3, h4⟩ := hrecv e d1
        rw [h1] at d2
        have := getPartition_some d2
        exact ⟨w, h1, h2, by omega, by omega⟩
      have hbx : ∀ i, i < bnd n nseg (p + 1) - bnd n nseg p →
          ∃ e, e ∈ bucketOf p items ∧ e.src = (bnd n nseg p : Int) + i + 1 := by
        intro i hi
        have hpo := partition_of_offset hp hi
        obtain ⟨e, d1, d2⟩ := hall _ p hpo hpm
        refine ⟨e, (hmem hp).2 ⟨d1, by rw [d2]; exact hpo⟩, by rw [d2]; omega⟩
      by_cases h0 : (bucketOf p items).length > 0
      · rw [if_pos h0, c3]
        simp only [Option.bind_some]
        rw [h.startId (by omega)]
        simp only [Option.bind_some]
        obtain ⟨s', f1, f2, f3, f4, f5, _⟩ := Segment.ingestEdges_spec (h.seg p hp) (g.seg p) (st := bnd n nseg p)
          (es := bucketOf p items) (by
            intro e he
            obtain ⟨w, k1, k2, k3, k4⟩ := hbm e he
            rw [h.cap p hp]
            omega)
        refine ⟨s', f1, f2, f4, ?_⟩
        intro i hi
        obtain ⟨e, k1, k2, k3⟩ := f5 i (hbx i hi)
        obtain ⟨w, l1, l2, _⟩ := hbm e k1
        rw [k3, l2]
        congr 2
        omega
      · rw [if_neg h0]
        refine ⟨_, rfl, h.seg p hp, rfl, ?_⟩
        intro i hi
        exfalso
        obtain ⟨e, k1, _⟩ := hbx i hi
        have := List.length_pos_of_mem k1
        omega)
  exact ⟨v', b1, b2, fun p hp hpm => (b3 p hp hpm).2⟩

/-- Redistributing one entry per index, in any distribution, gives every owner the entries of its segments. -/
theorem DVec.ingestEdgelist_spec {n nseg nrank : Nat} {d : DVec α} (h : d.WF n nseg nrank) (hs : 0 < nseg)
    (hr : 0 < nrank) (gm : Nat → Nat → Nat → Edge α) (g : Nat → IngestFresh α) {blob : Nat → List (Edge α)}
    {P : Nat → α} (hb : ∀ r, r < nrank → ∀ e, e ∈ blob r → ∃ w : Nat, 1 ≤ w ∧ w ≤ n ∧ e.src = w ∧ e.val = P w)
    (hall : ∀ w : Nat, 1 ≤ w → w ≤ n → ∃ r, r < nrank ∧ ∃ e, e ∈ blob r ∧ e.src = w) :
    ∃ d', d.ingestEdgelist gm g ((List.range nrank).map blob) = some d' ∧ d'.WF n nseg nrank ∧
      ∀ p, p < nseg → ∀ i, i < bnd n nseg (p + 1) - bnd n nseg p →
        (d'.own nrank p).view i = some (P (bnd n nseg p + i + 1)) := by
  unfold DVec.ingestEdgelist
  rw [h.size]
  have e1 : (List.range nrank).mapM (fun r => do
      let v ← d.read r
      let es ← ((List.range nrank).map blob)[r]?
      v.packEdges (gm r) es) = some ((List.range nrank).map (fun r => (List.range nrank).map (fun q =>
        (blob r).filter (fun e => decide (ownerOf n nseg nrank e.src.toNat = q))))) := by
    apply mapM_some
    intro r hrr
    have hrr := List.mem_range.1 hrr
    rw [Arr.read_some (by rw [h.size]; exact hrr)]
    simp only [Option.bind_eq_bind, Option.bind_some]
    rw [List.getElem?_map, List.getElem?_range hrr]
    simp only [Option.map_some, Option.bind_some]
    apply SpVec.packEdges_spec (h.rank r hrr) hs hr
    intro e he
    obtain ⟨w, k1, k2, k3, _⟩ := hb r hrr e he
    omega
  rw [e1]
  simp only [Option.bind_eq_bind, Option.bind_some]
  obtain ⟨d', a1, a2, a3⟩ := eachRank_spec (d := d) (f := fun r v =>
      (((List.range nrank).map (fun r => (List.range nrank).map (fun q =>
        (blob r).filter (fun e => decide (ownerOf n nseg nrank e.src.toNat = q))))).mapM (fun m => m[r]?)).bind
          fun parts => v.ingestReceived (g r) parts.flatten)
    (P := fun r v' => v'.WF n nseg nrank r ∧ ∀ p, p < nseg → p % nrank = r →
      ∀ i, i < bnd n nseg (p + 1) - bnd n nseg p → (v'.segs.get p).view i = some (P (bnd n nseg p + i + 1))) (by
    intro q hq
    rw [h.size] at hq
    have e2 : ((List.range nrank).map (fun r => (List.range nrank).map (fun q =>
        (blob r).filter (fun e => decide (ownerOf n nseg nrank e.src.toNat = q))))).mapM (fun m => m[q]?)
        = some ((List.range nrank).map (fun r =>
          (blob r).filter (fun e => decide (ownerOf n nseg nrank e.src.toNat = q)))) := by
      rw [mapM_map]
      apply mapM_some
      intro r _
      rw [List.getElem?_map, List.getElem?_range hq]
      rfl
    rw [e2]
    simp only [Option.bind_some]
    have hmem : ∀ e, e ∈ ((List.range nrank).map (fun r =>
        (blob r).filter (fun e => decide (ownerOf n nseg nrank e.src.toNat = q)))).flatten ↔
        ∃ r, r < nrank ∧ e ∈ blob r ∧ ownerOf n nseg nrank e.src.toNat = q := by
      intro e
      rw [List.mem_flatten]
      constructor
      · rintro ⟨l, hl, he⟩
        obtain ⟨r, hrr, rfl⟩ := List.mem_map.1 hl
        have := List.mem_filter.1 he
        exact ⟨r, List.mem_range.1 hrr, this.1, by simpa using this.2⟩
      · rintro ⟨r, hrr, he, ho⟩
        exact ⟨_, List.mem_map.2 ⟨r, List.mem_range.2 hrr, rfl⟩, List.mem_filter.2 ⟨he, by simpa using ho⟩⟩
    apply SpVec.ingestReceived_spec (h.rank q hq) hr
    · intro e he
      obtain ⟨r, hrr, he, ho⟩ := (hmem e).1 he
      obtain ⟨w, k1, k2, k3, k4⟩ := hb r hrr e he
      obtain ⟨p, hp, _⟩ := locate (n := n) (nseg := nseg) (w := w) hs k1 k2
      refine ⟨w, p, k3, k4, hp, ?_⟩
      rw [k3, Int.toNat_natCast, ownerOf_of hp] at ho
      exact ho
    · intro w p hp hpm
      have hg := getPartition_some hp
      have hbn : bnd n nseg (p + 1) ≤ n := bnd_le
      obtain ⟨r, hrr, e, he, hw⟩ := hall w (by omega) (by omega)
      refine ⟨e, (hmem e).2 ⟨r, hrr, he, ?_⟩, hw⟩
      rw [hw, Int.toNat_natCast, ownerOf_of hp]
      exact hpm)
  refine ⟨d', a1, ⟨a2.trans h.size, fun r hrr => (a3 r (by rw [h.size]; exact hrr)).2.1⟩, ?_⟩
  intro p hp i hi
  exact (a3 (p % nrank) (by rw [h.size]; exact Nat.mod_lt _ hr)).2.2 p hp rfl i hi

theorem SpVec.save_spec {n nseg nrank me : Nat} {v : SpVec α} (h : v.WF n nseg nrank me) (hr : 0 < nrank) {P : Nat → α}
    (hv : ∀ p, p < nseg → p % nrank = me → ∀ i, i < bnd n nseg (p + 1) - bnd n nseg p →
      (v.segs.get p).view i = some (P (bnd n nseg p + i + 1))) (hdr : Bool) :
    v.save hdr = some ((List.range nseg).flatMap (fun p => if p % nrank = me then
      [(p, (if hdr then some (n, bnd n nseg (p + 1) - bnd n nseg p) else none),
        (List.range (bnd n nseg (p + 1) - bnd n nseg p)).map (fun i => (i + bnd n nseg p, P (bnd n nseg p + i + 1))))]
      else [])) := by
  unfold SpVec.save
  rw [h.hseg]
  rw [forLoop_append (F := fun p => if p % nrank = me then
      [(p, (if hdr then some (n, bnd n nseg (p + 1) - bnd n nseg p) else none),
        (List.range (bnd n nseg (p + 1) - bnd n nseg p)).map (fun i => (i + bnd n nseg p, P (bnd n nseg p + i + 1))))]
      else []) (Nat.zero_le _)]
  · rw [List.nil_append, Nat.sub_zero, ← List.range_eq_range']
  · intro p _ hp acc
    rw [h.owns hr]
    simp only [Option.bind_eq_bind, Option.bind_some]
    by_cases e : p % nrank = me
    · rw [if_pos (by simpa using e), if_pos e, Arr.read_some (by rw [h.size]; exact hp)]
      simp only [Option.bind_some]
      rw [h.startId (by omega)]
      simp only [Option.bind_some]
      rw [Segment.save_spec (h.seg p hp) (f := fun i => P (bnd n nseg p + i + 1)) (by
        intro i hi
        rw [h.cap p hp] at hi
        exact hv p hp e i hi)]
      rw [h.cap p hp, h.hn]
      rfl
    · rw [if_neg (by simpa using e), if_neg e, List.append_nil]

end GraphMat

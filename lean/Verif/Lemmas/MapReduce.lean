import Verif.Model.MapReduce
import Verif.Lemmas.VGraph
import Verif.Lemmas.Reduce
import Verif.Lemmas.ApplyStep

/-! What `applyReduceAllVertices` computes. -/
namespace GraphMat

variable {V T : Type}

/-- `r` is a bracketing of the values of `l`, in this order. -/
def Brackets (op : T → T → T) (l : List T) (r : T) : Prop := ∃ t : RTree T, t.leaves = l ∧ t.eval op = r

theorem Brackets.one (op : T → T → T) (x : T) : Brackets op [x] x := ⟨.leaf x, rfl, rfl⟩

theorem Brackets.append {op : T → T → T} {l l' : List T} {r r' : T} (h : Brackets op l r) (h' : Brackets op l' r') :
    Brackets op (l ++ l') (op r r') := by
  obtain ⟨t, rfl, rfl⟩ := h
  obtain ⟨t', rfl, rfl⟩ := h'
  exact ⟨.node t t', rfl, rfl⟩

theorem Brackets.foldl {op : T → T → T} {l : List T} {r : T} (h : Brackets op l r) (us : List T) :
    Brackets op (l ++ us) (us.foldl op r) := by
  induction us generalizing l r with
  | nil => simpa using h
  | cons u us ih =>
    have := ih (h.append (.one op u))
    rwa [List.append_assoc] at this

theorem Brackets.reduceAll {op : T → T → T} {l : List T} {r : T} (h : Brackets op l r) (us : List T) :
    Brackets op (l ++ us) (addLocal op r (reduceAll op us)) := by
  cases us with
  | nil => simpa [addLocal, GraphMat.reduceAll] using h
  | cons u us => exact h.append ((Brackets.one op u).foldl us)

theorem Brackets.reduces {op : T → T → T} {l : List T} {r : T} (h : Brackets op l r) : Reduces op l (some r) := by
  obtain ⟨t, rfl, rfl⟩ := h
  exact .inr ⟨t, .refl _, rfl⟩

/-- The mapped values of the elements of an array whose bits are set, between two indices. -/
def partVals (m : V → T) (value : Arr V) (bits : Arr Word) (lo hi : Nat) : List T :=
  (List.range' lo (hi - lo)).flatMap (fun i => if bitAt bits i = true then [m (value.get i)] else [])

theorem partVals_append (m : V → T) (value : Arr V) (bits : Arr Word) {a b c : Nat} (h1 : a ≤ b) (h2 : b ≤ c) :
    partVals m value bits a b ++ partVals m value bits b c = partVals m value bits a c := by
  unfold partVals
  rw [← List.flatMap_append]
  congr 1
  rw [show c - a = (b - a) + (c - b) by omega]
  rw [← List.range'_append, Nat.one_mul]
  rw [show a + (b - a) = b by omega]

theorem partVals_congr (m : V → T) {value value' : Arr V} (bits : Arr Word) {lo hi : Nat}
    (h : ∀ i, lo ≤ i → i < hi → value.get i = value'.get i) :
    partVals m value bits lo hi = partVals m value' bits lo hi := by
  unfold partVals
  apply flatMap_ext
  intro i hi
  rw [List.mem_range'_1] at hi
  rw [h i hi.1 (by omega)]

theorem mapReducePart_spec {map : V → T → T × V} {op : T → T → T} {tmp : Nat → T} {m : V → T} {w : V → V}
    (hm : ∀ v old, map v old = (m v, w v)) {bits : Arr Word} {lo hi : Nat} {value : Arr V} (hle : lo ≤ hi)
    (hsz : hi ≤ value.size) (hbits : value.size ≤ 32 * bits.size) :
    ∃ value', mapReducePart map op tmp bits lo hi value = some (value', reduceAll op (partVals m value bits lo hi)) ∧
      value'.size = value.size ∧
      ∀ i, value'.get i = if lo ≤ i ∧ i < hi ∧ bitAt bits i = true then w (value.get i) else value.get i := by
  unfold mapReducePart
  obtain ⟨st, h1, h2, h3, h4⟩ := forLoop_inv (lo := lo) (hi := hi) (s := (value, (none : Option T)))
    (body := fun i st => do
      let bit ← getBitvector i bits
      if bit then
        let v ← st.1.read i
        let r := map v (tmp i)
        let value ← st.1.write i r.2
        match st.2 with
        | some a => some (value, some (op a r.1))
        | none => some (value, some r.1)
      else some st)
    (fun k st => st.2 = reduceAll op (partVals m value bits lo k) ∧ st.1.size = value.size ∧
      ∀ i, st.1.get i = if lo ≤ i ∧ i < k ∧ bitAt bits i = true then w (value.get i) else value.get i)
    hle ⟨by simp [partVals, reduceAll], rfl, fun i => by rw [if_neg (by omega)]⟩ (by
      intro k st k1 k2 ⟨e1, e2, e3⟩
      rw [getBitvector_eq (by omega)]
      simp only [Option.bind_eq_bind, Option.bind_some]
      have hv : partVals m value bits lo (k + 1) = partVals m value bits lo k ++
          (if bitAt bits k = true then [m (value.get k)] else []) := by
        rw [← partVals_append m value bits k1 (Nat.le_succ k)]
        congr 1
        simp [partVals]
      by_cases hb : bitAt bits k = true
      · rw [if_pos hb] at hv
        rw [if_pos hb, Arr.read_some (by omega)]
        simp only [Option.bind_some]
        rw [hm, Arr.write_some (by omega)]
        simp only [Option.bind_some]
        have hk : st.1.get k = value.get k := by rw [e3, if_neg (by omega)]
        have hget : ∀ i, (st.1.upd k (w (st.1.get k))).get i =
            if lo ≤ i ∧ i < k + 1 ∧ bitAt bits i = true then w (value.get i) else value.get i := by
          intro i
          by_cases e : i = k
          · subst e
            rw [Arr.upd_get_self, hk, if_pos ⟨k1, by omega, hb⟩]
          · rw [Arr.upd_get_ne _ _ e, e3]
            have : (i < k + 1) ↔ i < k := by omega
            simp only [this]
        cases hs : st.2 with
        | none =>
          refine ⟨_, rfl, ?_, by simpa using e2, hget⟩
          rw [hs] at e1
          have : partVals m value bits lo k = [] := by
            cases hp : partVals m value bits lo k with
            | nil => rfl
            | cons a l => rw [hp] at e1; cases e1
          rw [hv, this, hk]; rfl
        | some a =>
          refine ⟨_, rfl, ?_, by simpa using e2, hget⟩
          rw [hs] at e1
          cases hp : partVals m value bits lo k with
          | nil => rw [hp] at e1; cases e1
          | cons b l =>
            rw [hp] at e1
            simp only [reduceAll, Option.some.injEq] at e1
            rw [hv, hp, hk]
            simp [reduceAll, e1]
      · rw [if_neg hb]
        refine ⟨st, rfl, ?_, e2, ?_⟩
        · rw [hv, if_neg hb, List.append_nil]; exact e1
        · intro i
          rw [e3]
          by_cases e : i = k
          · subst e; rw [if_neg (by omega), if_neg (by simp [hb])]
          · have : (i < k + 1) ↔ i < k := by omega
            simp only [this])
  exact ⟨st.1, h1.trans (by rw [← h2]), h3, h4⟩

theorem mapReduceDense_spec {map : V → T → T × V} {op : T → T → T} {tmp : Nat → T} {m : V → T} {w : V → V}
    (hm : ∀ v old, map v old = (m v, w v)) {threads : Nat} (ht : 0 < threads) {value : Arr V} {bits : Arr Word}
    (hbits : value.size ≤ 32 * bits.size) (hfit : value.size + threads ≤ IMAX) (res : T) :
    ∃ value' r, mapReduceDense threads map op tmp value bits value.size res = some (value', r) ∧
      value'.size = value.size ∧
      (∀ i, i < value.size → value'.get i = if bitAt bits i = true then w (value.get i) else value.get i) ∧
      ∀ l, Brackets op l res → Brackets op (l ++ partVals m value bits 0 value.size) r := by
  unfold mapReduceDense
  rw [← Int.natCast_add, ck_nat hfit]
  simp only [Option.bind_eq_bind, Option.bind_some]
  let per := (value.size + threads - 1) / threads
  let b : Nat → Nat := fun p => min (per * p) value.size
  have hb0 : b 0 = 0 := by simp [b]
  have hbm : ∀ p, b p ≤ b (p + 1) := by
    intro p
    have : per * p ≤ per * (p + 1) := Nat.mul_le_mul_left _ (Nat.le_succ p)
    simp only [b]; omega
  have hbs : ∀ p, b p ≤ value.size := fun p => Nat.min_le_right _ _
  have hbT : b threads = value.size := by
    have h2 : value.size + threads - 1 < threads * per + threads := by
      have := Nat.div_add_mod (value.size + threads - 1) threads
      have := Nat.mod_lt (value.size + threads - 1) ht
      show _ < threads * ((value.size + threads - 1) / threads) + threads
      omega
    rw [Nat.mul_comm] at h2
    show min (per * threads) value.size = value.size
    omega
  obtain ⟨st, h1, h2, h3, h4⟩ := forLoop_inv (lo := 0) (hi := threads) (s := (value, ([] : List (Option T))))
    (body := fun p st => (mapReducePart map op tmp bits (b p) (b (p + 1)) st.1).bind
      (fun r => some (r.1, st.2 ++ [r.2])))
    (fun k st => st.1.size = value.size ∧
      (∀ i, st.1.get i = if i < b k ∧ bitAt bits i = true then w (value.get i) else value.get i) ∧
      ∀ l, Brackets op l res → Brackets op (l ++ partVals m value bits 0 (b k)) (st.2.foldl (addLocal op) res))
    (Nat.zero_le _) ⟨rfl, fun i => by rw [hb0, if_neg (by omega)], fun l hl => by
      rw [hb0]; simpa [partVals] using hl⟩ (by
      intro k st _ hk ⟨e1, e2, e3⟩
      obtain ⟨v', f1, f2, f3⟩ := mapReducePart_spec (op := op) (tmp := tmp) hm (bits := bits) (value := st.1) (hbm k)
        (by rw [e1]; exact hbs _) (by rw [e1]; exact hbits)
      refine ⟨_, by rw [f1]; rfl, by rw [f2]; exact e1, ?_, ?_⟩
      · intro i
        rw [f3, e2]
        have := hbm k
        by_cases hbit : bitAt bits i = true
        · by_cases h : i < b k
          · rw [if_neg (by omega), if_pos ⟨h, hbit⟩, if_pos ⟨by omega, hbit⟩]
          · by_cases h' : i < b (k + 1)
            · rw [if_pos ⟨by omega, h', hbit⟩, if_neg (by omega), if_pos ⟨h', hbit⟩]
            · rw [if_neg (by omega), if_neg (by omega), if_neg (by omega)]
        · rw [if_neg (by simp [hbit]), if_neg (by simp [hbit]), if_neg (by simp [hbit])]
      · intro l hl
        have := (e3 l hl).reduceAll (partVals m st.1 bits (b k) (b (k + 1)))
        rw [List.foldl_append]
        have hc : partVals m st.1 bits (b k) (b (k + 1)) = partVals m value bits (b k) (b (k + 1)) :=
          partVals_congr m bits (fun i h1 h2 => by rw [e2, if_neg (by omega)])
        rw [← partVals_append m value bits (Nat.zero_le (b k)) (hbm k), ← List.append_assoc]
        rw [hc] at this
        simp only [List.foldl_cons, List.foldl_nil]
        rw [hc]
        exact this)
  have h1' : forLoop 0 threads (value, ([] : List (Option T))) (fun p st =>
      (mapReducePart map op tmp bits (min ((value.size + threads - 1) / threads * p) value.size)
        (min ((value.size + threads - 1) / threads * (p + 1)) value.size) st.1).bind
      (fun r => some (r.1, st.2 ++ [r.2]))) = some st := h1
  rw [h1']
  refine ⟨_, _, rfl, h2, ?_, ?_⟩
  · intro i hi
    rw [h3, hbT]
    simp only [hi, true_and]
  · rw [hbT] at h4; exact h4

theorem mapReduceSegment_spec {map : V → T → T × V} {op : T → T → T} {tmp : Nat → T} {m : V → T} {w : V → V}
    (hm : ∀ v old, map v old = (m v, w v)) {threads : Nat} (ht : 0 < threads) (g : Fresh V) {s : Segment V}
    (h : s.WF) (hfit : s.capacity + threads ≤ IMAX) (res : T) :
    ∃ s' r, mapReduceSegment threads g map op tmp s res = some (s', r) ∧ s'.WF ∧ s'.Ready ∧
      s'.capacity = s.capacity ∧ (∀ i, s'.view i = (s.view i).map w) ∧
      ∀ l, Brackets op l res → Brackets op (l ++ s.items (fun _ v => m v)) r := by
  unfold mapReduceSegment
  obtain ⟨b, a1, a2, a3, a4, a5, _⟩ := Segment.alloc_initialize h g
  rw [a1]
  simp only [Option.bind_eq_bind, Option.bind_some]
  obtain ⟨v', r, b1, b2, b3, b4⟩ := mapReduceDense_spec (op := op) (tmp := tmp) hm ht (value := b.value) (bits := b.bits)
    (by rw [a3.value, a3.bits, h.ni]; omega) (by rw [a3.value]; exact hfit) res
  rw [a3.value] at b1 b3
  rw [b1]
  simp only [Option.bind_some]
  refine ⟨_, _, rfl, ?_, ⟨_, rfl, a2⟩, rfl, ?_, ?_⟩
  · exact h.congr_props ⟨by simpa [b2] using a3.value, a3.bits, a3.cdata, a3.cidx⟩ (fun _ => a4)
  · intro i
    rw [← a5]
    simp only [Segment.view, Buffer.view, a2, b2, Bool.false_eq_true, if_false]
    by_cases hc : i < b.value.size ∧ bitAt b.bits i = true
    · rw [if_pos hc, if_pos hc, b3 i (by rw [← a3.value]; exact hc.1), if_pos hc.2]; rfl
    · rw [if_neg hc, if_neg hc]; rfl
  · intro l hl
    have := b4 l hl
    have he : partVals m b.value b.bits 0 b.value.size = s.items (fun _ v => m v) := by
      unfold partVals Segment.items
      rw [a3.value, Nat.sub_zero, ← List.range_eq_range']
      apply flatMap_ext
      intro i hi
      have hi := List.mem_range.mp hi
      rw [← a5]
      simp only [Buffer.view, a2, Bool.false_eq_true, if_false, a3.value]
      by_cases hb : bitAt b.bits i = true
      · rw [if_pos hb, if_pos ⟨hi, hb⟩]; rfl
      · rw [if_neg hb, if_neg (by simp [hb])]; rfl
    rw [he] at this
    exact this

theorem DVec.mapReduceRank_spec {map : V → T → T × V} {op : T → T → T} {tmp : Nat → Nat → T} {m : V → T} {w : V → V}
    (hm : ∀ v old, map v old = (m v, w v)) {threads : Nat} (ht : 0 < threads) (g : Nat → Fresh V)
    {n nseg nrank : Nat} (hs : 0 < nseg) {d : DVec V} (h : d.WF n nseg nrank) {r : Nat} (hr : r < nrank)
    (hfit : n + threads ≤ IMAX) (res : T) :
    ∃ v' x, (d.get r).mapReduce threads g map op tmp res = some (v', x) ∧ v'.WF n nseg nrank r ∧
      (∀ p, p < nseg → p % nrank = r → (v'.segs.get p).Ready ∧
        ∀ i, (v'.segs.get p).view i = (((d.get r).segs.get p).view i).map w) ∧
      ∀ l, Brackets op l res → Brackets op (l ++ d.items n nseg nrank r (fun _ v => m v)) x := by
  have hw := h.rank r hr
  unfold SpVec.mapReduce
  rw [hw.hseg]
  obtain ⟨st, h1, h2, h3, h4, h5⟩ := forLoop_inv (lo := 0) (hi := nseg) (s := (d.get r, res))
    (body := fun j st => do
      let own ← st.1.owns j
      if own then
        let s ← st.1.segs.read j
        let r ← mapReduceSegment threads (g j) map op (tmp j) s st.2
        let segs ← st.1.segs.write j r.1
        some ({ st.1 with segs := segs }, r.2)
      else some st)
    (fun k st => st.1.WF n nseg nrank r ∧ (∀ p, k ≤ p → st.1.segs.get p = (d.get r).segs.get p) ∧
      (∀ p, p < k → p % nrank = r → (st.1.segs.get p).Ready ∧
        ∀ i, (st.1.segs.get p).view i = (((d.get r).segs.get p).view i).map w) ∧
      ∀ l, Brackets op l res → Brackets op (l ++ (List.range' 0 k).flatMap (fun p =>
        if p % nrank = r then ((d.get r).segs.get p).items (fun _ v => m v) else [])) st.2)
    (Nat.zero_le _) ⟨hw, fun _ _ => rfl, fun p hp => absurd hp (Nat.not_lt_zero _), fun l hl => by simpa using hl⟩ (by
      intro k st _ hk ⟨e1, e2, e3, e4⟩
      rw [e1.owns (by omega)]
      simp only [Option.bind_eq_bind, Option.bind_some]
      have hcat : ∀ F : Nat → List T, (List.range' 0 (k + 1)).flatMap F = (List.range' 0 k).flatMap F ++ F k := by
        intro F
        rw [List.range'_concat, List.flatMap_append]; simp
      by_cases e : k % nrank = r
      · rw [if_pos (by simpa using e), Arr.read_some (by rw [e1.size]; exact hk)]
        simp only [Option.bind_some]
        have hcap : (st.1.segs.get k).capacity + threads ≤ IMAX := by
          rw [e1.cap k hk]
          have := bnd_le (n := n) (nseg := nseg) (i := k + 1)
          omega
        obtain ⟨s', x, f1, f2, f3, f4, f5, f6⟩ := mapReduceSegment_spec (op := op) (tmp := tmp k) hm ht (g k)
          (e1.seg k hk) hcap st.2
        rw [f1]
        simp only [Option.bind_some]
        rw [Arr.write_some (by rw [e1.size]; exact hk)]
        refine ⟨_, rfl, e1.write f2 f4, ?_, ?_, ?_⟩
        · intro p hp
          simp only
          rw [Arr.upd_get_ne _ _ (by omega)]
          exact e2 p (by omega)
        · intro p hp hpr
          simp only
          by_cases ep : p = k
          · subst ep
            rw [Arr.upd_get_self]
            exact ⟨f3, fun i => by rw [f5, e2 p (Nat.le_refl _)]⟩
          · rw [Arr.upd_get_ne _ _ ep]
            exact e3 p (by omega) hpr
        · intro l hl
          have := f6 _ (e4 l hl)
          rw [hcat, if_pos e, ← List.append_assoc]
          rw [e2 k (Nat.le_refl _)] at this
          exact this
      · rw [if_neg (by simpa using e)]
        refine ⟨st, rfl, e1, fun p hp => e2 p (by omega), ?_, ?_⟩
        · intro p hp hpr
          have : p ≠ k := by rintro rfl; exact e hpr
          exact e3 p (by omega) hpr
        · intro l hl
          rw [hcat, if_neg e, List.append_nil]
          exact e4 l hl)
  refine ⟨st.1, st.2, h1, h2, fun p hp hpr => h4 p hp hpr, ?_⟩
  intro l hl
  have := h5 l hl
  rw [← DVec.items_eq h hs hr]
  exact this

theorem DVec.mapReduce_spec {map : V → T → T × V} {op : T → T → T} {tmp : Nat → Nat → Nat → T} {m : V → T} {w : V → V}
    (hm : ∀ v old, map v old = (m v, w v)) {threads : Nat} (ht : 0 < threads) (g : Nat → Nat → Fresh V)
    {n nseg nrank : Nat} (hs : 0 < nseg) (hr : 0 < nrank) {d : DVec V} (h : d.WF n nseg nrank)
    (hfit : n + threads ≤ IMAX) (init : Nat → T) :
    ∃ d' x, DVec.mapReduce threads g map op tmp d init = some (d', x) ∧ d'.WF n nseg nrank ∧ d'.Ready nseg nrank ∧
      (∀ k, d'.sem n nseg nrank k = (d.sem n nseg nrank k).map w) ∧
      Brackets op ((List.range nrank).flatMap (fun r => init r :: d.items n nseg nrank r (fun _ v => m v))) x := by
  unfold DVec.mapReduce
  rw [h.size]
  obtain ⟨st, h1, h2, h3, h4, h5, h6⟩ := forLoop_inv (lo := 0) (hi := nrank) (s := (d, ([] : List T)))
    (body := fun r st => do
      let v ← st.1.read r
      let x ← v.mapReduce threads (g r) map op (tmp r) (init r)
      let d ← st.1.write r x.1
      some (d, st.2 ++ [x.2]))
    (fun k st => st.1.size = nrank ∧ (∀ r, k ≤ r → st.1.get r = d.get r) ∧
      (∀ r, r < k → (st.1.get r).WF n nseg nrank r ∧
        (∀ p, p < nseg → p % nrank = r → ((st.1.get r).segs.get p).Ready ∧
          ∀ i, ((st.1.get r).segs.get p).view i = (((d.get r).segs.get p).view i).map w)) ∧
      st.2.length = k ∧
      (∀ r0 rest, st.2 = r0 :: rest →
        Brackets op ((List.range k).flatMap (fun r => init r :: d.items n nseg nrank r (fun _ v => m v)))
          (rest.foldl op r0)))
    (Nat.zero_le _) ⟨h.size, fun _ _ => rfl, fun p hp => absurd hp (Nat.not_lt_zero _), rfl, fun _ _ h => by cases h⟩ (by
      intro k st _ hk ⟨e1, e2, e3, e4, e5⟩
      rw [Arr.read_some (by omega)]
      simp only [Option.bind_eq_bind, Option.bind_some]
      rw [e2 k (Nat.le_refl _)]
      obtain ⟨v', x, f1, f2, f3, f4⟩ := DVec.mapReduceRank_spec (op := op) (tmp := tmp k) hm ht (g k) hs h hk hfit (init k)
      rw [f1]
      simp only [Option.bind_some]
      rw [Arr.write_some (by omega)]
      refine ⟨_, rfl, by simpa using e1, ?_, ?_, by simp [e4], ?_⟩
      · intro r hr
        simp only
        rw [Arr.upd_get_ne _ _ (by omega)]
        exact e2 r (by omega)
      · intro r hr
        simp only
        by_cases er : r = k
        · subst er
          rw [Arr.upd_get_self]
          exact ⟨f2, f3⟩
        · rw [Arr.upd_get_ne _ _ er]
          exact e3 r (by omega)
      · intro r0 rest hst
        simp only at hst
        have hx : Brackets op (init k :: d.items n nseg nrank k (fun _ v => m v)) x := f4 [init k] (.one op _)
        rw [List.range_succ, List.flatMap_append]
        simp only [List.flatMap_cons, List.flatMap_nil, List.append_nil]
        cases hl : st.2 with
        | nil =>
          rw [hl] at hst e4
          simp at hst e4
          obtain ⟨rfl, rfl⟩ := hst
          subst e4
          simpa using hx
        | cons a l =>
          rw [hl] at hst
          simp only [List.cons_append, List.cons.injEq] at hst
          obtain ⟨rfl, rfl⟩ := hst
          rw [List.foldl_append]
          exact (e5 _ _ hl).append hx)
  have h1' := h1
  rw [h1']
  simp only [Option.bind_eq_bind, Option.bind_some]
  cases hl : st.2 with
  | nil => rw [hl] at h5; simp at h5; omega
  | cons r0 rest =>
    refine ⟨st.1, _, rfl, ⟨h2, fun r hr => (h4 r hr).1⟩, ?_, ?_, h6 r0 rest hl⟩
    · intro p hp
      exact ((h4 (p % nrank) (Nat.mod_lt _ hr)).2 p hp rfl).1
    · intro k
      unfold DVec.sem
      cases hp : getPartition n nseg k with
      | none => rfl
      | some p => exact ((h4 (p % nrank) (Nat.mod_lt _ hr)).2 p (getPartition_some hp).1 rfl).2 _

/-- The values of a vector listed by user id. -/
theorem perm_items_user {n nrank threads : Nat} (c : Cfg n nrank threads) {d : DVec V} {P : Nat → V}
    (h : ∀ v, 1 ≤ v → v ≤ n → userSem n nrank threads d v = some (P v)) (m : V → T) :
    ((List.range nrank).flatMap (fun r => d.items n nrank nrank r (fun _ v => m v))).Perm
      ((List.range n).map (fun j => m (P (j + 1)))) := by
  have hsem : ∀ w, 1 ≤ w → w ≤ n → d.sem n nrank nrank w = some (P (n2v (threads * 16 * nrank) n w)) := by
    intro w h1 h2
    have hr := n2v_range (np := threads * 16 * nrank) h1 h2
    have := h (n2v (threads * 16 * nrank) n w) hr.1 hr.2
    unfold userSem at this
    rw [v2n_n2v c.nppos h1] at this
    exact this
  unfold DVec.items
  refine (perm_by_owner (List.range n) (fun j => ownerOf n nrank nrank (j + 1))
    (fun j => ((d.sem n nrank nrank (j + 1)).map (fun v => m v)).toList)
    (fun j hj => ownerOf_lt c.rpos c.rpos (by omega) (by have := List.mem_range.mp hj; omega))).trans ?_
  have e1 : (List.range n).flatMap (fun j => ((d.sem n nrank nrank (j + 1)).map (fun v => m v)).toList) =
      ((List.range n).map (fun j => n2v (threads * 16 * nrank) n (j + 1) - 1)).map (fun j => m (P (j + 1))) := by
    rw [List.map_map, List.map_eq_flatMap]
    apply flatMap_ext
    intro j hj
    have hj := List.mem_range.mp hj
    rw [hsem _ (by omega) (by omega)]
    have := (n2v_range (np := threads * 16 * nrank) (n := n) (v := j + 1) (by omega) (by omega)).1
    simp only [Option.map_some, Option.toList_some, Function.comp_apply]
    rw [show n2v (threads * 16 * nrank) n (j + 1) - 1 + 1 = n2v (threads * 16 * nrank) n (j + 1) by omega]
  rw [e1]
  apply List.Perm.map
  rw [List.perm_ext_iff_of_nodup]
  · intro a
    rw [List.mem_map, List.mem_range]
    constructor
    · rintro ⟨j, hj, rfl⟩
      have hj := List.mem_range.mp hj
      have := n2v_range (np := threads * 16 * nrank) (n := n) (v := j + 1) (by omega) (by omega)
      omega
    · intro ha
      have hr := v2n_range (n := n) c.nppos (v := a + 1) (by omega) (by omega)
      refine ⟨v2n (threads * 16 * nrank) n (a + 1) - 1, List.mem_range.mpr (by omega), ?_⟩
      rw [show v2n (threads * 16 * nrank) n (a + 1) - 1 + 1 = v2n (threads * 16 * nrank) n (a + 1) by omega,
        n2v_v2n c.nppos (by omega)]
      omega
  · rw [List.nodup_iff_pairwise_ne]
    rw [List.pairwise_map]
    refine List.Pairwise.imp_of_mem ?_ List.nodup_range
    intro a b ha hb hab he
    have ha := List.mem_range.mp ha
    have hb := List.mem_range.mp hb
    have h1 := n2v_range (np := threads * 16 * nrank) (n := n) (v := a + 1) (by omega) (by omega)
    have h2 := n2v_range (np := threads * 16 * nrank) (n := n) (v := b + 1) (by omega) (by omega)
    have h3 : n2v (threads * 16 * nrank) n (a + 1) = n2v (threads * 16 * nrank) n (b + 1) := by omega
    have := congrArg (v2n (threads * 16 * nrank) n) h3
    rw [v2n_n2v c.nppos (by omega), v2n_n2v c.nppos (by omega)] at this
    omega
  · exact List.nodup_range

theorem VGraph.applyReduce_spec {map : V → T → T × V} {op : T → T → T} {tmp : Nat → Nat → Nat → T} {m : V → T}
    {w : V → V} (hm : ∀ v old, map v old = (m v, w v)) (g : Nat → Nat → Fresh V)
    {n nrank threads : Nat} (c : Cfg n nrank threads) (hfit : n + threads ≤ IMAX) {G : VGraph V}
    (hG : G.Inv n nrank threads) {P : Nat → V} (hP : G.Props n nrank threads P) (init : Nat → T) :
    ∃ G' x, G.applyReduceAllVertices g map op tmp init = some (G', x) ∧ G'.Inv n nrank threads ∧
      G'.Props n nrank threads (fun v => w (P v)) ∧ G'.active = G.active ∧
      ∃ l, l.Perm ((List.range nrank).map init ++ (List.range n).map (fun j => m (P (j + 1)))) ∧ Brackets op l x := by
  unfold VGraph.applyReduceAllVertices
  rw [hG.ht]
  obtain ⟨d', x, a1, a2, a3, a4, a5⟩ := DVec.mapReduce_spec (op := op) (tmp := tmp) hm c.tpos g c.rpos c.rpos hG.vp
    hfit init
  rw [a1]
  refine ⟨_, _, rfl, ⟨hG.hn, hG.hr, rfl, a2, a3, hG.act, hG.actReady⟩, ?_, rfl, _, ?_, a5⟩
  · intro v v1 v2
    show DVec.sem _ _ _ d' _ = _
    rw [a4]
    have := hP v v1 v2
    unfold userSem at this
    rw [this]; rfl
  · have e : ∀ r, init r :: G.vp.items n nrank nrank r (fun _ v => m v) =
      [init r] ++ G.vp.items n nrank nrank r (fun _ v => m v) := fun _ => rfl
    simp only [e]
    refine (flatMap_append_perm' _ _ _).trans ?_
    refine List.Perm.append ?_ (perm_items_user c hP m)
    rw [List.map_eq_flatMap]

end GraphMat

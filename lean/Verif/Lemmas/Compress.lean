import Verif.Model.Compress
import Verif.Lemmas.Apply

namespace GraphMat

variable {α β σ : Type}

/-! ### Generalities on loops -/

theorem forLoop_concat {a b c : Nat} (h1 : a ≤ b) (h2 : b ≤ c) (s : σ)
    (body : Nat → σ → Option σ) :
    (forLoop a b s body).bind (fun s => forLoop b c s body) = forLoop a c s body := by
  unfold forLoop
  have : List.range' a (c - a) = List.range' a (b - a) ++ List.range' b (c - b) := by
    have := List.range'_append_1 (s := a) (m := b - a) (n := c - b)
    rw [show a + (b - a) = b by omega, show b - a + (c - b) = c - a by omega] at this
    exact this.symm
  rw [this, List.foldlM_append]
  rfl

/-- A loop split at monotone boundaries is the whole loop. -/
theorem forLoop_partition {B : Nat → Nat} {np : Nat} (hB : ∀ p, p < np → B p ≤ B (p + 1)) (s : σ)
    (body : Nat → σ → Option σ) :
    forLoop 0 np s (fun p s => forLoop (B p) (B (p + 1)) s body) = forLoop (B 0) (B np) s body := by
  have key : ∀ n, n ≤ np → B 0 ≤ B n ∧
      forLoop 0 n s (fun p s => forLoop (B p) (B (p + 1)) s body) = forLoop (B 0) (B n) s body := by
    intro n
    induction n with
    | zero => intro _; exact ⟨Nat.le_refl _, by rw [forLoop_empty (Nat.le_refl _), forLoop_empty (Nat.le_refl _)]⟩
    | succ n ih =>
      intro hn
      obtain ⟨h1, h2⟩ := ih (by omega)
      refine ⟨Nat.le_trans h1 (hB n (by omega)), ?_⟩
      rw [forLoop_succ_right (Nat.zero_le _), h2]
      exact forLoop_concat h1 (hB n (by omega)) s body
  exact (key np (Nat.le_refl _)).2

theorem foldlM_map' {l : List β} {g : β → Nat} {f : σ → Nat → Option σ} (s : σ) :
    (l.map g).foldlM f s = l.foldlM (fun s b => f s (g b)) s := by
  induction l generalizing s with
  | nil => rfl
  | cons a l ih =>
    rw [List.map_cons, List.foldlM_cons, List.foldlM_cons]
    cases f s (g a) with
    | none => rfl
    | some x => exact ih x

theorem mapM_some {l : List β} {f : β → Option α} {g : β → α} (h : ∀ b ∈ l, f b = some (g b)) :
    l.mapM f = some (l.map g) := by
  induction l with
  | nil => rfl
  | cons a l ih =>
    rw [List.mapM_cons, h a List.mem_cons_self, ih (fun b hb => h b (List.mem_cons_of_mem _ hb))]
    rfl

/-! ### Word partitions -/

/-- Start of partition `p`, clipped. -/
def wordLo (numInts np p : Nat) : Nat := min ((numInts + np - 1) / np * p) numInts

theorem wordLo_zero (n np : Nat) : wordLo n np 0 = 0 := by simp [wordLo]

theorem wordLo_last {n np : Nat} (h : 0 < np) : wordLo n np np = n := by
  unfold wordLo
  have : n ≤ (n + np - 1) / np * np := by
    have := Nat.div_add_mod (n + np - 1) np
    have h2 := Nat.mod_lt (n + np - 1) h
    rw [Nat.mul_comm] at this
    generalize (n + np - 1) / np * np = z at *
    omega
  omega

theorem wordLo_mono (n np p : Nat) : wordLo n np p ≤ wordLo n np (p + 1) := by
  unfold wordLo
  rw [Nat.mul_add]
  generalize (n + np - 1) / np * p = z
  omega

theorem wordLo_le (n np p : Nat) : wordLo n np p ≤ n := by
  unfold wordLo; omega

theorem partHi_eq (n np p : Nat) : partHi n np p = wordLo n np (p + 1) := by
  unfold partHi wordLo
  simp only
  split <;> omega

theorem forLoop_part (n np p : Nat) (s : σ) (body : Nat → σ → Option σ) :
    forLoop (partLo n np p) (partHi n np p) s body =
      forLoop (wordLo n np p) (wordLo n np (p + 1)) s body := by
  rw [partHi_eq]
  by_cases h : partLo n np p ≤ n
  · have : partLo n np p = wordLo n np p := by unfold partLo at h ⊢; unfold wordLo; omega
    rw [this]
  · have h1 : wordLo n np p = n := by unfold partLo at h; unfold wordLo; omega
    have h2 := wordLo_le n np (p + 1)
    rw [forLoop_empty (by omega), forLoop_empty (by omega)]

/-- The set bits of words `lo .. hi`, increasing. -/
def bitsIn (bv : Arr Word) (lo hi : Nat) : List Nat :=
  (List.range' (32 * lo) (32 * (hi - lo))).filter (fun i => bitAt bv i)

theorem bitsIn_append (bv : Arr Word) {a b c : Nat} (h1 : a ≤ b) (h2 : b ≤ c) :
    bitsIn bv a c = bitsIn bv a b ++ bitsIn bv b c := by
  unfold bitsIn
  rw [← List.filter_append]
  congr 1
  have := List.range'_append_1 (s := 32 * a) (m := 32 * (b - a)) (n := 32 * (c - b))
  rw [show 32 * a + 32 * (b - a) = 32 * b by omega,
    show 32 * (b - a) + 32 * (c - b) = 32 * (c - a) by omega] at this
  exact this.symm

theorem forBits_part {bv : Arr Word} {n np p : Nat} (hn : n = bv.size) (s : σ)
    (body : Nat → σ → Option σ) :
    forBits bv (partLo n np p) (partHi n np p) s body =
      (bitsIn bv (wordLo n np p) (wordLo n np (p + 1))).foldlM (fun s i => body i s) s := by
  have : forBits bv (partLo n np p) (partHi n np p) s body =
      forBits bv (wordLo n np p) (wordLo n np (p + 1)) s body := by
    unfold forBits
    exact forLoop_part n np p s _
  rw [this, forBits_eq (wordLo_mono n np p) (by rw [← hn]; exact wordLo_le n np _)]
  rfl

theorem computeNnz_part {b : Buffer α} {n np p : Nat} (hn : n = b.bits.size) :
    b.computeNnzRange (partLo n np p) (partHi n np p) =
      some (bitsIn b.bits (wordLo n np p) (wordLo n np (p + 1))).length := by
  have : b.computeNnzRange (partLo n np p) (partHi n np p) =
      b.computeNnzRange (wordLo n np p) (wordLo n np (p + 1)) := by
    unfold Buffer.computeNnzRange
    exact forLoop_part n np p 0 _
  rw [this, Buffer.computeNnzRange_spec (wordLo_mono n np p) (by rw [← hn]; exact wordLo_le n np _)]
  congr 1
  unfold bitsIn
  rw [List.range_eq_range', ← List.countP_eq_length_filter]
  rw [show List.range' (32 * wordLo n np p) (32 * (wordLo n np (p + 1) - wordLo n np p)) =
    (List.range' 0 (32 * (wordLo n np (p + 1) - wordLo n np p))).map (32 * wordLo n np p + ·) by
      rw [List.map_add_range']; rfl]
  rw [List.countP_map]
  rfl

/-! ### Prefix sums -/

theorem scanSums_concat (l : List Nat) (a : Nat) :
    scanSums (l ++ [a]) = scanSums l ++ [(scanSums l).getLastD 0 + a] := by
  unfold scanSums
  rw [List.foldl_append]
  rfl

theorem scanSums_eq (l : List Nat) :
    scanSums l = (List.range (l.length + 1)).map (fun p => (l.take p).sum) := by
  have key : ∀ k, k ≤ l.length →
      scanSums (l.take k) = (List.range (k + 1)).map (fun p => (l.take p).sum) := by
    intro k
    induction k with
    | zero => intro _; simp [scanSums]
    | succ k ih =>
      intro hk
      have e : l.take (k + 1) = l.take k ++ [l[k]'(by omega)] := by
        rw [List.take_append_getElem]
      rw [e, scanSums_concat, ih (by omega), List.range_succ (n := k + 1), List.map_append]
      congr 1
      rw [List.range_succ, List.map_append, List.map_singleton, List.map_singleton, e,
        List.sum_append, List.sum_singleton, List.getLastD_concat]
  have := key l.length (Nat.le_refl _)
  rwa [List.take_length] at this

theorem foldl_add_sum (l : List Nat) (a : Nat) : l.foldl (· + ·) a = a + l.sum := by
  induction l generalizing a with
  | nil => simp
  | cons x l ih => simp only [List.foldl_cons, List.sum_cons, ih]; omega

/-! ### Writing records at consecutive positions -/

/-- The first `n` compressed records. -/
def Buffer.records (n : Nat) (cd : Arr α) (ci : Arr Nat) : List (Nat × α) :=
  (List.range n).map (fun j => (ci.get j, cd.get j))

theorem Buffer.records_snoc {n : Nat} (cd : Arr α) (ci : Arr Nat) (v : α) (i : Nat) :
    Buffer.records (n + 1) (cd.upd n v) (ci.upd n i) = Buffer.records n cd ci ++ [(i, v)] := by
  unfold Buffer.records
  rw [List.range_succ, List.map_append]
  congr 1
  · apply List.map_congr_left
    intro j hj
    have : j ≠ n := by have := List.mem_range.mp hj; omega
    rw [Arr.upd_get_ne _ _ this, Arr.upd_get_ne _ _ this]
  · simp

theorem compress_writes {val : Arr α} {cap : Nat} (l : List Nat) (hl : ∀ i ∈ l, i < val.size)
    (cd : Arr α) (ci : Arr Nat) (k : Nat) (hcd : cd.size = cap) (hci : ci.size = cap)
    (hk : k + l.length ≤ cap) :
    ∃ cd' ci', l.foldlM (fun (st : Arr α × Arr Nat × Nat) i => do
        let v ← val.read i
        let cd ← st.1.write st.2.2 v
        let ci ← st.2.1.write st.2.2 i
        some (cd, ci, st.2.2 + 1)) (cd, ci, k) = some (cd', ci', k + l.length) ∧
      cd'.size = cap ∧ ci'.size = cap ∧
      Buffer.records (k + l.length) cd' ci' =
        Buffer.records k cd ci ++ l.map (fun i => (i, val.get i)) := by
  induction l generalizing cd ci k with
  | nil => exact ⟨cd, ci, rfl, hcd, hci, by simp⟩
  | cons a l ih =>
    simp only [List.length_cons] at hk
    obtain ⟨cd', ci', h1, h2, h3, h4⟩ := ih (fun i hi => hl i (List.mem_cons_of_mem _ hi))
      (cd.upd k (val.get a)) (ci.upd k a) (k + 1) (by simpa using hcd) (by simpa using hci) (by omega)
    refine ⟨cd', ci', ?_, h2, h3, ?_⟩
    · rw [List.foldlM_cons]
      simp only [Option.bind_eq_bind]
      rw [Arr.read_some (hl a List.mem_cons_self), Option.bind_some,
        Arr.write_some (by omega), Option.bind_some, Arr.write_some (by omega), Option.bind_some]
      simp only [Option.bind_some]
      simp only [Option.bind_eq_bind] at h1
      rw [h1, List.length_cons]
      congr 3; omega
    · rw [List.length_cons, show k + (l.length + 1) = k + 1 + l.length by omega, h4,
        Buffer.records_snoc]
      simp

/-! ### What a buffer carries -/

/-- The indices at which a partial map is defined. -/
def support (cap : Nat) (m : Nat → Option α) : List Nat :=
  (List.range cap).filter (fun i => (m i).isSome)

/-- A list of records is the increasing enumeration of a partial map. -/
def Rep (cap : Nat) (m : Nat → Option α) (R : List (Nat × α)) : Prop :=
  R.map (fun e => (e.1, some e.2)) = (support cap m).map (fun i => (i, m i))

theorem Rep.keys {cap : Nat} {m : Nat → Option α} {R : List (Nat × α)} (h : Rep cap m R) :
    R.map (·.1) = support cap m := by
  have := congrArg (List.map Prod.fst) h
  simpa [List.map_map, Function.comp_def] using this

theorem Rep.nodup {cap : Nat} {m : Nat → Option α} {R : List (Nat × α)} (h : Rep cap m R) :
    (R.map (·.1)).Nodup := by
  rw [h.keys]; exact List.Pairwise.filter _ List.nodup_range

theorem Rep.length_le {cap : Nat} {m : Nat → Option α} {R : List (Nat × α)} (h : Rep cap m R) :
    R.length ≤ cap := by
  have := congrArg List.length h.keys
  rw [List.length_map] at this
  rw [this]
  have := List.length_filter_le (fun i => (m i).isSome) (List.range cap)
  simpa [support] using this

theorem Rep.mem {cap : Nat} {m : Nat → Option α} {R : List (Nat × α)} (h : Rep cap m R)
    {i : Nat} {x : α} : (i, x) ∈ R ↔ i < cap ∧ m i = some x := by
  constructor
  · intro hm
    have : (i, some x) ∈ R.map (fun e => (e.1, some e.2)) := List.mem_map.mpr ⟨(i, x), hm, rfl⟩
    rw [h, List.mem_map] at this
    obtain ⟨j, hj, e⟩ := this
    simp only [Prod.mk.injEq] at e
    obtain ⟨rfl, e⟩ := e
    unfold support at hj
    rw [List.mem_filter, List.mem_range] at hj
    exact ⟨hj.1, e⟩
  · intro ⟨h1, h2⟩
    have hs : i ∈ support cap m := by
      unfold support
      rw [List.mem_filter, List.mem_range]
      exact ⟨h1, by simp [h2]⟩
    have : (i, m i) ∈ (support cap m).map (fun i => (i, m i)) := List.mem_map.mpr ⟨i, hs, rfl⟩
    rw [← h, List.mem_map] at this
    obtain ⟨⟨j, y⟩, hj, e⟩ := this
    simp only [Prod.mk.injEq] at e
    obtain ⟨rfl, e⟩ := e
    rw [h2] at e
    simp only [Option.some.injEq] at e
    subst e; exact hj

/-- The partial map of a value array with presence bits. -/
def pview (cap : Nat) (st : Arr α × Arr Word) (i : Nat) : Option α :=
  if i < cap ∧ bitAt st.2 i = true then some (st.1.get i) else none

/-- Sizes and unused bits of a value array with presence bits. -/
structure POk (cap : Nat) (st : Arr α × Arr Word) : Prop where
  value : st.1.size = cap
  bits : st.2.size = (cap + 31) / 32
  tail : ∀ i, cap ≤ i → i / 32 < st.2.size → bitAt st.2 i = false

theorem Buffer.pview_eq {b : Buffer α} {cap ni : Nat} (hd : b.Dims cap ni) (hu : b.uninit = false) :
    b.view = pview cap (b.value, b.bits) := by
  funext i
  rw [Buffer.view_of_init hu, hd.value]
  rfl

/-- What the transferred part of a buffer encodes (selected by `nnz`). -/
def Buffer.Carries (ser : Bool) (cap : Nat) (b : Buffer α) (m : Nat → Option α) : Prop :=
  match shouldCompress ser cap b.nnz with
  | .compressed => ∃ n : Nat, b.nnz = n ∧ n ≤ cap ∧ Rep cap m (Buffer.records n b.cdata b.cidx)
  | .serialized => Rep cap m b.sdata.flatten
  | .none => POk cap (b.value, b.bits) ∧ ∀ i, i < cap → m i = pview cap (b.value, b.bits) i

/-! ### compress -/

theorem bitsIn_all {b : Buffer α} {cap : Nat} (hd : b.Dims cap ((cap + 31) / 32)) (ht : b.Tail cap)
    (hu : b.uninit = false) : bitsIn b.bits 0 b.bits.size = support cap b.view := by
  unfold bitsIn support
  rw [hd.bits, Nat.mul_zero, Nat.sub_zero]
  have e : List.range' 0 (32 * ((cap + 31) / 32)) =
      List.range cap ++ List.range' cap (32 * ((cap + 31) / 32) - cap) := by
    rw [List.range_eq_range']
    have := List.range'_append_1 (s := 0) (m := cap) (n := 32 * ((cap + 31) / 32) - cap)
    rw [Nat.zero_add, show cap + (32 * ((cap + 31) / 32) - cap) = 32 * ((cap + 31) / 32) by omega] at this
    exact this.symm
  rw [e, List.filter_append]
  have e2 : (List.range' cap (32 * ((cap + 31) / 32) - cap)).filter (fun i => bitAt b.bits i) = [] := by
    rw [List.filter_eq_nil_iff]
    intro i hi
    rw [List.mem_range'_1] at hi
    rw [ht i hi.1 (by rw [hd.bits]; omega)]
    simp
  rw [e2, List.append_nil]
  apply List.filter_congr
  intro i hi
  rw [List.mem_range] at hi
  rw [Buffer.view_of_init hu, hd.value]
  cases bitAt b.bits i <;> simp [hi]

theorem mem_bitsIn_lt {b : Buffer α} {cap : Nat} (hd : b.Dims cap ((cap + 31) / 32)) (ht : b.Tail cap)
    {lo hi i : Nat} (h : hi ≤ b.bits.size) (hi' : i ∈ bitsIn b.bits lo hi) : i < b.value.size := by
  unfold bitsIn at hi'
  rw [List.mem_filter, List.mem_range'_1] at hi'
  rw [hd.value]
  rcases Nat.lt_or_ge i cap with h1 | h1
  · exact h1
  · have := ht i h1 (by omega)
    rw [this] at hi'
    exact absurd hi'.2 (by decide)

theorem rep_support {b : Buffer α} {cap : Nat} (hu : b.uninit = false)
    {R : List (Nat × α)} (hR : R = (support cap b.view).map (fun i => (i, b.value.get i))) :
    Rep cap b.view R := by
  unfold Rep
  rw [hR, List.map_map]
  apply List.map_congr_left
  intro i hi
  unfold support at hi
  rw [List.mem_filter] at hi
  rw [Buffer.view_of_init hu] at hi ⊢
  by_cases h : i < b.value.size ∧ bitAt b.bits i = true
  · rw [if_pos h]; rfl
  · rw [if_neg h] at hi; simp at hi

/-- Lengths of the prefix of partitions. -/
theorem bitsIn_take {bv : Arr Word} {n np : Nat} (p : Nat) (hp : p ≤ np) :
    (((List.range np).map (fun p => (bitsIn bv (wordLo n np p) (wordLo n np (p + 1))).length)).take
      p).sum = (bitsIn bv 0 (wordLo n np p)).length := by
  induction p with
  | zero => simp [wordLo_zero, bitsIn]
  | succ p ih =>
    rw [← List.take_append_getElem (i := p) (by simp; omega), List.sum_append, ih (by omega),
      bitsIn_append bv (Nat.zero_le _) (wordLo_mono n np p), List.length_append]
    simp

theorem Buffer.compress_spec {b : Buffer α} {cap threads : Nat} (hth : 0 < threads)
    (hd : b.Dims cap ((cap + 31) / 32)) (ht : b.Tail cap) (hu : b.uninit = false) :
    ∃ (n : Nat) (cd : Arr α) (ci : Arr Nat), b.compress threads =
        some { b with nnz := (n : Int), cdata := cd, cidx := ci } ∧
      cd.size = cap ∧ ci.size = cap ∧ n ≤ cap ∧ n = (support cap b.view).length ∧
      Rep cap b.view (Buffer.records n cd ci) := by
  unfold Buffer.compress
  have hnp : 0 < threads * 16 := by omega
  generalize threads * 16 = np at hnp
  simp only [Option.bind_eq_bind]
  rw [if_neg (by omega)]
  rw [mapM_some (g := fun p => (bitsIn b.bits (wordLo b.bits.size np p)
    (wordLo b.bits.size np (p + 1))).length) (fun p _ => computeNnz_part rfl)]
  rw [Option.bind_some, scanSums_eq, foldl_add_sum, Nat.zero_add]
  have hlen : ((List.range np).map (fun p => (bitsIn b.bits (wordLo b.bits.size np p)
    (wordLo b.bits.size np (p + 1))).length)).length = np := by simp
  have htot := bitsIn_take (bv := b.bits) (n := b.bits.size) np (Nat.le_refl np)
  rw [List.take_of_length_le (by simp), wordLo_last hnp, bitsIn_all hd ht hu] at htot
  have hle : (support cap b.view).length ≤ cap := by
    have := List.length_filter_le (fun i => (b.view i).isSome) (List.range cap)
    simpa [support] using this
  obtain ⟨⟨cd, ci⟩, h1, h2, h3, h4⟩ := forLoop_inv (lo := 0) (hi := np) (s := (b.cdata, b.cidx))
    (body := fun p (st : Arr α × Arr Nat) =>
      (((List.range (((List.range np).map (fun p => (bitsIn b.bits (wordLo b.bits.size np p)
        (wordLo b.bits.size np (p + 1))).length)).length + 1)).map (fun p =>
          (((List.range np).map (fun p => (bitsIn b.bits (wordLo b.bits.size np p)
        (wordLo b.bits.size np (p + 1))).length)).take p).sum))[p]?).bind (fun nzcnt =>
      (forBits b.bits (partLo b.bits.size np p) (partHi b.bits.size np p) (st.1, st.2, nzcnt)
      (fun i (st : Arr α × Arr Nat × Nat) =>
        (b.value.read i).bind (fun v => (st.1.write st.2.2 v).bind (fun cd =>
        (st.2.1.write st.2.2 i).bind (fun ci => some (cd, ci, st.2.2 + 1)))))).bind (fun r =>
      some (r.1, r.2.1))))
    (fun p st => st.1.size = cap ∧ st.2.size = cap ∧
      Buffer.records (bitsIn b.bits 0 (wordLo b.bits.size np p)).length st.1 st.2 =
        (bitsIn b.bits 0 (wordLo b.bits.size np p)).map (fun i => (i, b.value.get i)))
    (Nat.zero_le _)
    ⟨hd.cdata, hd.cidx, by simp [wordLo_zero, bitsIn, Buffer.records]⟩ (by
      intro p ⟨cd, ci⟩ _ hp ⟨i1, i2, i3⟩
      simp only at i1 i2 i3
      rw [hlen, List.getElem?_map, List.getElem?_range (by omega), Option.map_some,
        bitsIn_take p (by omega), Option.bind_some, forBits_part rfl]
      have happ := bitsIn_append b.bits (Nat.zero_le _) (wordLo_mono b.bits.size np p)
      have hfull : (bitsIn b.bits 0 (wordLo b.bits.size np (p + 1))).length ≤ cap := by
        have := bitsIn_append b.bits (Nat.zero_le _) (wordLo_le b.bits.size np (p + 1))
        have h5 := congrArg List.length this
        rw [List.length_append, bitsIn_all hd ht hu] at h5
        omega
      have hfull2 := hfull
      rw [happ, List.length_append] at hfull2
      obtain ⟨cd', ci', w1, w2, w3, w4⟩ := compress_writes (val := b.value) (cap := cap)
        (bitsIn b.bits (wordLo b.bits.size np p) (wordLo b.bits.size np (p + 1)))
        (fun i hi => mem_bitsIn_lt hd ht (wordLo_le b.bits.size np (p + 1)) hi) cd ci
        (bitsIn b.bits 0 (wordLo b.bits.size np p)).length i1 i2 hfull2
      simp only [Option.bind_eq_bind] at w1
      refine ⟨(cd', ci'), ?_, w2, w3, ?_⟩
      · simp only; rw [w1]; rfl
      · rw [happ, List.length_append, w4, i3, List.map_append])
  rw [h1]
  rw [wordLo_last hnp, bitsIn_all hd ht hu] at h4
  refine ⟨_, cd, ci, rfl, h2, h3, by omega, htot, ?_⟩
  rw [htot]
  exact rep_support hu h4

theorem foldlM_append_acc (l : List Nat) (f : Nat → Option β) (g : Nat → β) (h : ∀ i ∈ l, f i = some (g i))
    (acc : List β) : l.foldlM (fun acc i => (f i).bind (fun v => some (acc ++ [v]))) acc =
      some (acc ++ l.map g) := by
  induction l generalizing acc with
  | nil => simp
  | cons a l ih =>
    rw [List.foldlM_cons, h a List.mem_cons_self]
    simp only [Option.bind_eq_bind, Option.bind_some]
    rw [ih (fun i hi => h i (List.mem_cons_of_mem _ hi))]
    simp

theorem flatten_parts {bv : Arr Word} {n np : Nat} (f : Nat → β) (p : Nat) :
    ((List.range p).map (fun p => (bitsIn bv (wordLo n np p) (wordLo n np (p + 1))).map f)).flatten =
      (bitsIn bv 0 (wordLo n np p)).map f := by
  induction p with
  | zero => simp [wordLo_zero, bitsIn]
  | succ p ih =>
    rw [List.range_succ, List.map_append, List.flatten_append, ih,
      bitsIn_append bv (Nat.zero_le _) (wordLo_mono n np p), List.map_append]
    simp

theorem Buffer.compressSer_spec {b : Buffer α} {cap threads : Nat} (hth : 0 < threads)
    (hd : b.Dims cap ((cap + 31) / 32)) (ht : b.Tail cap) (hu : b.uninit = false) :
    ∃ parts : List (List (Nat × α)), b.compressSer threads = some { b with sdata := parts } ∧
      parts.length = threads * 16 ∧ Rep cap b.view parts.flatten := by
  unfold Buffer.compressSer
  have hnp : 0 < threads * 16 := by omega
  generalize threads * 16 = np at hnp
  simp only [Option.bind_eq_bind]
  rw [if_neg (by omega)]
  rw [mapM_some (g := fun p => (bitsIn b.bits (wordLo b.bits.size np p)
    (wordLo b.bits.size np (p + 1))).map (fun i => (i, b.value.get i))) (by
      intro p _
      rw [forBits_part rfl]
      have := foldlM_append_acc (bitsIn b.bits (wordLo b.bits.size np p)
        (wordLo b.bits.size np (p + 1))) (fun i => (b.value.read i).map (fun v => (i, v)))
        (fun i => (i, b.value.get i)) (by
          intro i hi
          rw [Arr.read_some (mem_bitsIn_lt hd ht (wordLo_le b.bits.size np (p + 1)) hi)]; rfl) []
      rw [List.nil_append] at this
      rw [← this]
      congr 1
      funext acc i
      cases b.value.read i <;> rfl)]
  refine ⟨_, rfl, by simp, ?_⟩
  apply rep_support hu
  rw [flatten_parts, wordLo_last hnp, bitsIn_all hd ht hu]

/-- `DenseSegment::compress` keeps the map of the segment and makes its buffer carry it. -/
theorem Segment.compress_spec {s : Segment α} (h : s.WF) (ser : Bool) {threads : Nat}
    (hth : 0 < threads) (g : Fresh α) :
    ∃ b, s.compress ser threads g = some { s with props := some b } ∧ b.uninit = false ∧
      b.Dims s.capacity s.numInts ∧ b.Tail s.capacity ∧ b.view = s.view ∧
      b.Carries ser s.capacity s.view ∧ (ser = true → b.sdata.length = threads * 16) := by
  obtain ⟨b, hb, hu, hd, ht, hv, _⟩ := s.alloc_initialize h g
  unfold Segment.compress
  rw [hb]
  simp only [Option.bind_eq_bind, Option.bind_some]
  have hd' := hd
  rw [h.ni] at hd'
  cases hdec : shouldCompress ser s.capacity b.nnz with
  | none =>
    refine ⟨b, rfl, hu, hd, ht, hv, ?_, ?_⟩
    · unfold Buffer.Carries
      rw [hdec]
      refine ⟨⟨hd'.value, hd'.bits, ht⟩, ?_⟩
      intro i hi
      rw [← hv, Buffer.pview_eq hd hu]
    · intro hs; subst hs; simp [shouldCompress] at hdec
  | serialized =>
    obtain ⟨parts, h1, h2, h3⟩ := Buffer.compressSer_spec hth hd' ht hu
    simp only [h1, Option.bind_some]
    refine ⟨_, rfl, hu, ⟨hd.value, hd.bits, hd.cdata, hd.cidx⟩, ht, ?_, ?_, fun _ => h2⟩
    · rw [← hv]; rfl
    · unfold Buffer.Carries
      simp only [hdec]
      rw [← hv]; exact h3
  | compressed =>
    obtain ⟨n, cd, ci, h1, h2, h3, h4, h5, h6⟩ := Buffer.compress_spec hth hd' ht hu
    simp only [h1, Option.bind_some]
    have hser : ser = false := by cases ser <;> simp_all [shouldCompress]
    refine ⟨_, rfl, hu, ⟨hd.value, hd.bits, h2, h3⟩, ht, ?_, ?_, by simp [hser]⟩
    · rw [← hv]; rfl
    · unfold Buffer.Carries
      simp only
      rw [← hv]
      cases hdec2 : shouldCompress ser s.capacity (n : Int) with
      | none =>
        refine ⟨⟨hd'.value, hd'.bits, ht⟩, ?_⟩
        intro i hi
        rw [Buffer.pview_eq hd hu]
      | serialized => simp [shouldCompress, hser] at hdec2; split at hdec2 <;> simp at hdec2
      | compressed => exact ⟨n, rfl, h4, h6⟩

end GraphMat

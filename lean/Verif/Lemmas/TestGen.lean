import Verif.Model.TestGen
import Verif.Spec.TestGraphs
import Verif.Lemmas.EdgeIO
import Mathlib.Tactic.Linarith
import Mathlib.Tactic.Ring

namespace GraphMat

variable {E : Type}

/-! ### The loops that fill the arrays -/

/-- The first `l.length` edges have been written. -/
structure FilledTo (N : Nat) (l : List (Edge E)) (s : Arr (Edge E) × Nat) : Prop where
  size : s.1.size = N
  k : s.2 = l.length
  pre : s.1.pre l.length = l

theorem putEdge_filled {one : E} {src dst : Int} {N : Nat} {l : List (Edge E)} {s : Arr (Edge E) × Nat} (h : FilledTo N l s)
    (hl : l.length < N) : ∃ s', putEdge one src dst s = some s' ∧ FilledTo N (l ++ [⟨src, dst, one⟩]) s' := by
  obtain ⟨a, k⟩ := s
  obtain ⟨h1, h2, h3⟩ := h
  simp only at h1 h2 h3
  subst h2
  refine ⟨(a.upd l.length ⟨src, dst, one⟩, l.length + 1), ?_, h1, by simp, ?_⟩
  · unfold putEdge Arr.write
    rw [if_pos (by simp only; omega)]
    rfl
  · rw [List.length_append]
    show (a.upd l.length _).pre (l.length + 1) = _
    rw [Arr.pre_snoc, h3]

/-- A row of edges. -/
theorem putRow_filled {one : E} (src : Int) {N lo hi : Nat} {l : List (Edge E)} {s : Arr (Edge E) × Nat} (hle : lo ≤ hi)
    (h : FilledTo N l s) (hl : l.length + (hi - lo) ≤ N) :
    ∃ s', forLoop lo hi s (fun j s => putEdge one src ((j : Int) + 1) s) = some s' ∧
      FilledTo N (l ++ (List.range' lo (hi - lo)).map (fun (j : Nat) => ⟨src, (j : Int) + 1, one⟩)) s' := by
  refine forLoop_inv (fun i s => FilledTo N (l ++ (List.range' lo (i - lo)).map (fun (j : Nat) => ⟨src, (j : Int) + 1, one⟩)) s) hle
    (by simpa using h) ?_
  intro i s h1 h2 hs
  obtain ⟨s', a1, a2⟩ := putEdge_filled (one := one) (src := src) (dst := (i : Int) + 1) hs (by simp; omega)
  refine ⟨s', a1, ?_⟩
  rw [show i + 1 - lo = (i - lo) + 1 by omega, List.range'_concat, List.map_append, ← List.append_assoc]
  simpa [show lo + (i - lo) = i by omega] using a2

theorem putRows_filled {one : E} {N n : Nat} (lo : Nat → Nat) (hlo : ∀ i, i < n → lo i ≤ n) (g : Nat → Edge E)
    (hN : ∀ i, i < n → ((List.range i).map (fun i => n - lo i)).sum + (n - lo i) ≤ N) :
    ∃ s', forLoop 0 n ((⟨N, g⟩ : Arr (Edge E)), 0) (fun i s =>
        forLoop (lo i) n s (fun j s => putEdge one ((i : Int) + 1) ((j : Int) + 1) s)) = some s' ∧
      FilledTo N ((List.range n).flatMap (fun i =>
        (List.range' (lo i) (n - lo i)).map (fun (j : Nat) => ⟨(i : Int) + 1, (j : Int) + 1, one⟩))) s' := by
  refine forLoop_inv (fun i s => FilledTo N ((List.range i).flatMap (fun i =>
        (List.range' (lo i) (n - lo i)).map (fun (j : Nat) => ⟨(i : Int) + 1, (j : Int) + 1, one⟩))) s) (Nat.zero_le _)
    ⟨rfl, rfl, rfl⟩ ?_
  intro i s _ h2 hs
  obtain ⟨s', a1, a2⟩ := putRow_filled (one := one) ((i : Int) + 1) (hlo i h2) hs (by
    rw [List.length_flatMap]
    simpa using hN i h2)
  refine ⟨s', a1, ?_⟩
  rw [List.range_succ, List.flatMap_append]
  simpa using a2

/-- What a generator makes. -/
structure Made (n : Nat) (es : List (Edge E)) (el : EdgeList E) : Prop where
  list : el.list = es
  size : el.edges.size = el.nnz
  m : el.m = n
  n : el.n = n

theorem sum_const (c k : Nat) : ((List.range k).map (fun _ => c)).sum = k * c := by
  induction k with
  | zero => simp
  | succ k ih =>
    rw [List.range_succ, List.map_append, List.sum_append, ih, Nat.succ_mul]
    simp

theorem FilledTo.made {N n : Nat} {l : List (Edge E)} {s : Arr (Edge E) × Nat} (h : FilledTo N l s) (hl : l.length = N)
    (g : Nat → Edge E) : Made n l { EdgeList.alloc g n n N with edges := s.1 } := by
  refine ⟨?_, h.size, rfl, rfl⟩
  rw [EdgeList.list_eq]
  show s.1.pre N = l
  rw [← hl]
  exact h.pre

theorem denseEdges_length (one : E) (n : Nat) : (denseEdges one n).length = n * n := by
  unfold denseEdges
  rw [List.length_flatMap]
  simp only [List.length_map, List.length_range]
  exact sum_const n n

theorem upper_sum (n : Nat) : ∀ i, i ≤ n → 2 * ((List.range i).map (fun i => n - (i + 1))).sum + i + i * i = 2 * n * i := by
  intro i
  induction i with
  | zero => simp
  | succ i ih =>
    intro h
    have := ih (by omega)
    rw [List.range_succ, List.map_append, List.sum_append]
    simp only [List.map_cons, List.map_nil, List.sum_cons, List.sum_nil, Nat.add_zero]
    obtain ⟨d, rfl⟩ : ∃ d, n = i + 1 + d := ⟨n - (i + 1), by omega⟩
    rw [show i + 1 + d - (i + 1) = d by omega]
    nlinarith

theorem upperEdges_length (one : E) (n : Nat) : (upperEdges one n).length = n * (n - 1) / 2 := by
  unfold upperEdges
  rw [List.length_flatMap]
  have h := upper_sum n n (Nat.le_refl _)
  simp only [List.length_map, List.length_range']
  cases n with
  | zero => rfl
  | succ n =>
    rw [Nat.add_sub_cancel]
    have : 2 * ((List.range (n + 1)).map (fun i => n + 1 - (i + 1))).sum = (n + 1) * n := by nlinarith
    omega

theorem genDense_made (g : Nat → Edge E) (one : E) {n : Nat} (h : n * n ≤ IMAX) :
    ∃ el, genDense g one n = some el ∧ Made n (denseEdges one n) el := by
  unfold genDense cmul
  rw [← Int.natCast_mul, ck_nat h]
  simp only [Option.bind_eq_bind, Option.bind_some, Int.toNat_natCast]
  obtain ⟨s, h1, h2⟩ := putRows_filled (one := one) (N := n * n) (n := n) (fun _ => 0) (fun _ _ => Nat.zero_le _) g (by
    intro i hi
    rw [sum_const]
    calc i * (n - 0) + (n - 0) = (i + 1) * n := by rw [Nat.sub_zero]; ring
      _ ≤ n * n := Nat.mul_le_mul_right _ hi)
  have h1' : forLoop 0 n ((EdgeList.alloc g n n (n * n)).edges, 0) (fun i s =>
        forLoop 0 n s (fun j s => putEdge one ((i : Int) + 1) ((j : Int) + 1) s)) = some s := h1
  rw [h1']
  refine ⟨_, rfl, FilledTo.made ?_ (denseEdges_length one n) g⟩
  simpa [denseEdges, List.range_eq_range'] using h2

theorem genUpper_made (g : Nat → Edge E) (one : E) {n : Nat} (h1 : 1 ≤ n) (h : n * (n - 1) ≤ IMAX) :
    ∃ el, genUpper g one n = some el ∧ Made n (upperEdges one n) el := by
  unfold genUpper cmul csub cdiv
  have hn : n ≤ IMAX := by
    by_contra hc
    have : IMAX * 1 < n * (n - 1) := Nat.mul_lt_mul_of_lt_of_le (by omega) (by unfold IMAX at hc; omega) (by unfold IMAX at hc; omega)
    omega
  have e1 : ((n : Int) - 1) = ((n - 1 : Nat) : Int) := by omega
  rw [e1, ck_nat (by omega)]
  simp only [Option.bind_eq_bind, Option.bind_some]
  rw [← Int.natCast_mul, ck_nat h]
  simp only [Option.bind_some]
  rw [if_neg (by decide), show (2 : Int) = ((2 : Nat) : Int) from rfl, ← Int.ofNat_tdiv, ck_nat (Nat.le_trans (Nat.div_le_self _ 2) h)]
  simp only [Option.bind_some, Int.toNat_natCast]
  obtain ⟨s, h1, h2⟩ := putRows_filled (one := one) (N := n * (n - 1) / 2) (n := n) (fun i => i + 1) (fun _ hi => hi) g (by
    intro i hi
    have a := upper_sum n (i + 1) (by omega)
    rw [List.range_succ, List.map_append, List.sum_append] at a
    simp only [List.map_cons, List.map_nil, List.sum_cons, List.sum_nil, Nat.add_zero] at a
    generalize ((List.range i).map (fun i => n - (i + 1))).sum = x at a ⊢
    obtain ⟨d, rfl⟩ : ∃ d, n = i + 1 + d := ⟨n - (i + 1), by omega⟩
    rw [show i + 1 + d - (i + 1) = d by omega] at a ⊢
    rw [show i + 1 + d - 1 = i + d by omega]
    rw [Nat.le_div_iff_mul_le (by decide)]
    have : d ≤ d * d := Nat.le_mul_self d
    nlinarith)
  have h1' : forLoop 0 n ((EdgeList.alloc g n n (n * (n - 1) / 2)).edges, 0) (fun i s =>
        forLoop (i + 1) n s (fun j s => putEdge one ((i : Int) + 1) ((j : Int) + 1) s)) = some s := h1
  rw [h1']
  exact ⟨_, rfl, FilledTo.made h2 (upperEdges_length one n) g⟩

/-- A loop that writes every entry once. -/
theorem fill_made (g : Nat → Edge E) {n : Nat} (f : Nat → Edge E) (body : Nat → Arr (Edge E) → Option (Arr (Edge E)))
    (hb : ∀ i a, i < n → body i a = a.write i (f i)) :
    ∃ a, forLoop 0 n (EdgeList.alloc g n n n).edges body = some a ∧
      Made n ((List.range n).map f) { EdgeList.alloc g n n n with edges := a } := by
  obtain ⟨a, a1, a2, a3⟩ := forLoop_inv (lo := 0) (hi := n) (s := (EdgeList.alloc g n n n).edges) (body := body)
    (fun i (a : Arr (Edge E)) => a.size = n ∧ a.pre i = (List.range i).map f) (Nat.zero_le _) ⟨rfl, rfl⟩ (by
      rintro i a _ h ⟨h1, h2⟩
      refine ⟨a.upd i (f i), ?_, h1, ?_⟩
      · rw [hb i a h]
        unfold Arr.write
        rw [if_pos (by omega)]
        rfl
      · rw [Arr.pre_snoc, h2, List.range_succ, List.map_append]
        rfl)
  exact ⟨a, a1, a3, a2, rfl, rfl⟩

theorem genIdentity_made (g : Nat → Edge E) (one : E) (n : Nat) :
    ∃ el, genIdentity g one n = some el ∧ Made n (loopEdges one n) el := by
  unfold genIdentity
  obtain ⟨a, a1, a2⟩ := fill_made g (n := n) (fun i => ⟨(i : Int) + 1, (i : Int) + 1, one⟩)
    (fun i a => a.write i ⟨(i : Int) + 1, (i : Int) + 1, one⟩) (fun _ _ _ => rfl)
  simp only [a1]
  exact ⟨_, rfl, a2⟩

theorem genChain_made (g : Nat → Edge E) (one : E) {n : Nat} (hn : n ≤ IMAX) :
    ∃ el, genChain g one n = some el ∧ Made n (chainEdges one n) el := by
  unfold genChain
  obtain ⟨a, a1, a2⟩ := fill_made g (n := n) (fun i => ⟨(i : Int) + 1, if i + 1 = n then 1 else (i : Int) + 2, one⟩)
    (fun i a => do
      let d ← cmod ((i : Int) + 1) n
      a.write i ⟨(i : Int) + 1, d + 1, one⟩) (by
      intro i a hi
      unfold cmod
      have e1 : ((i : Int) + 1) = ((i + 1 : Nat) : Int) := by omega
      have hd : (i + 1) / n ≤ i + 1 := Nat.div_le_self _ _
      have hm : (i + 1) % n ≤ i + 1 := Nat.mod_le _ _
      rw [if_neg (by omega), e1, ← Int.ofNat_tdiv, ck_nat (by omega), if_neg (by simp), ← Int.ofNat_tmod,
        ck_nat (by omega)]
      simp only [Option.bind_eq_bind, Option.bind_some]
      congr 1
      by_cases h : i + 1 = n
      · rw [if_pos h, h, Nat.mod_self]; rfl
      · rw [if_neg h, Nat.mod_eq_of_lt (by omega)]
        congr 1)
  simp only [a1]
  exact ⟨_, rfl, a2⟩

/-! ### Spreading the edges over the ranks -/

/-- How many edges rank `b` gets. -/
def shareCount (nnz nrank b : Nat) : Nat := nnz / nrank + if b < nnz % nrank then 1 else 0

/-- Where they begin. -/
def sharePos (nnz nrank b : Nat) : Nat := b * (nnz / nrank) + min b (nnz % nrank)

theorem sharePos_succ (nnz nrank b : Nat) : sharePos nnz nrank (b + 1) = sharePos nnz nrank b + shareCount nnz nrank b := by
  unfold sharePos shareCount
  rw [Nat.succ_mul]
  split <;> omega

theorem sharePos_end {nnz nrank : Nat} (h : 0 < nrank) : sharePos nnz nrank nrank = nnz := by
  unfold sharePos
  have := Nat.mod_lt nnz h
  have := Nat.div_add_mod nnz nrank
  rw [Nat.min_eq_right (by omega)]
  omega

theorem sharePos_le {nnz nrank b : Nat} (h : b ≤ nrank) (hr : 0 < nrank) : sharePos nnz nrank b ≤ nnz := by
  have hmono : ∀ k, sharePos nnz nrank b ≤ sharePos nnz nrank (b + k) := by
    intro k
    induction k with
    | zero => exact Nat.le_refl _
    | succ k ih => rw [← Nat.add_assoc, sharePos_succ]; omega
  have := hmono (nrank - b)
  rwa [show b + (nrank - b) = nrank by omega, sharePos_end hr] at this

theorem distributeCounts_eq {nnz nrank : Nat} (h : 0 < nrank) :
    ∃ c, distributeCounts nnz nrank = some c ∧ c.size = nrank ∧ ∀ b, b < nrank → c.get b = shareCount nnz nrank b := by
  unfold distributeCounts
  have hm : nnz - nrank * (nnz / nrank) = nnz % nrank := by
    have := Nat.div_add_mod nnz nrank
    omega
  have hlt := Nat.mod_lt nnz h
  simp only [hm]
  rw [if_pos hlt]
  obtain ⟨r, r1, r2, r3, r4⟩ := forLoop_inv (lo := 0) (hi := nrank) (s := ((⟨nrank, fun _ => 0⟩ : Arr Nat), nnz % nrank))
    (body := distributeCount (nnz / nrank))
    (fun i s => s.1.size = nrank ∧ s.2 = nnz % nrank - i ∧ ∀ b, b < i → s.1.get b = shareCount nnz nrank b)
    (Nat.zero_le _) ⟨rfl, rfl, fun _ h => absurd h (Nat.not_lt_zero _)⟩ (by
      rintro i ⟨c, rem⟩ _ hi ⟨h1, h2, h3⟩
      simp only at h1 h2 h3
      unfold distributeCount
      simp only [Arr.write, h1, if_pos hi, Option.bind_eq_bind, Option.bind_some]
      by_cases hr : 0 < rem
      · rw [if_pos hr]
        simp only [Arr.read, if_pos hi, Option.bind_some, if_true]
        refine ⟨_, rfl, rfl, by simp only; omega, ?_⟩
        intro b hb
        simp only
        by_cases hbi : b = i
        · subst hbi
          rw [if_pos rfl]
          unfold shareCount
          rw [if_pos (by omega)]
        · rw [if_neg hbi, if_neg hbi]
          exact h3 b (by omega)
      · rw [if_neg hr]
        refine ⟨_, rfl, rfl, by simp only; omega, ?_⟩
        intro b hb
        simp only
        by_cases hbi : b = i
        · subst hbi
          rw [if_pos rfl]
          unfold shareCount
          rw [if_neg (by omega)]
          rfl
        · rw [if_neg hbi]
          exact h3 b (by omega))
  simp only [r1, Option.bind_eq_bind, Option.bind_some]
  exact ⟨_, rfl, r2, r4⟩

theorem distributePositions_eq {nnz nrank : Nat} (h : 0 < nrank) {c : Arr Nat} (hs : c.size = nrank)
    (hc : ∀ b, b < nrank → c.get b = shareCount nnz nrank b) :
    ∃ p, distributePositions nnz nrank c = some p ∧ p.size = nrank + 1 ∧ ∀ b, b < nrank → p.get b = sharePos nnz nrank b := by
  unfold distributePositions
  obtain ⟨r, r1, r2, r3⟩ := forLoop_inv (lo := 1) (hi := nrank) (s := (⟨nrank + 1, fun _ => 0⟩ : Arr Nat))
    (body := fun bin p => do
      let x ← p.read (bin - 1)
      let c ← c.read (bin - 1)
      p.write bin (x + c))
    (fun i (p : Arr Nat) => p.size = nrank + 1 ∧ ∀ b, b < i → p.get b = sharePos nnz nrank b) h
    ⟨rfl, fun b hb => by
      obtain rfl : b = 0 := by omega
      simp [sharePos]⟩ (by
      rintro i p h1 h2 ⟨h3, h4⟩
      refine ⟨p.upd i (sharePos nnz nrank i), ?_, h3, ?_⟩
      · rw [Arr.read_some (show i - 1 < p.size by omega), Arr.read_some (show i - 1 < c.size by omega)]
        simp only [Option.bind_eq_bind, Option.bind_some]
        rw [h4 (i - 1) (by omega), hc (i - 1) (by omega), ← sharePos_succ, show i - 1 + 1 = i by omega]
        exact Arr.write_some (by omega)
      · intro b hb
        by_cases hbi : b = i
        · subst hbi; rw [Arr.upd_get_self]
        · rw [Arr.upd_get_ne _ _ (by omega)]
          exact h4 b (by omega))
  rw [r1]
  refine ⟨r.upd nrank nnz, ?_, r2, ?_⟩
  · exact Arr.write_some (by omega)
  · intro b hb
    rw [Arr.upd_get_ne _ _ (by omega)]
    exact r3 b hb

/-- The edges for rank `b`. -/
def edgeShare (l : List (Edge E)) (nrank b : Nat) : List (Edge E) :=
  (l.drop (sharePos l.length nrank b)).take (shareCount l.length nrank b)

theorem shareOf_flatten (l : List (Edge E)) (nrank : Nat) :
    ∀ k, ((List.range k).map (edgeShare l nrank)).flatten = l.take (sharePos l.length nrank k) := by
  intro k
  induction k with
  | zero => simp [sharePos]
  | succ k ih =>
    rw [List.range_succ, List.map_append, List.flatten_append, ih, sharePos_succ, List.take_add]
    simp [edgeShare]

theorem shareOf_all (l : List (Edge E)) {nrank : Nat} (h : 0 < nrank) :
    ((List.range nrank).map (edgeShare l nrank)).flatten = l := by
  rw [shareOf_flatten, sharePos_end h, List.take_length]

theorem shareOf_length (l : List (Edge E)) {nrank b : Nat} (hb : b < nrank) :
    (edgeShare l nrank b).length = shareCount l.length nrank b := by
  unfold edgeShare
  have := sharePos_le (nnz := l.length) (nrank := nrank) (b := b + 1) hb (by omega)
  rw [sharePos_succ] at this
  rw [List.length_take, List.length_drop]
  omega

theorem readRange_eq {el : EdgeList E} (hs : el.edges.size = el.nnz) {p c : Nat} (h : p + c ≤ el.nnz) :
    (List.range c).mapM (fun k => el.edges.read (p + k)) = some ((el.list.drop p).take c) := by
  rw [mapM_some_map (h := fun k => el.edges.get (p + k)) (by
    intro k hk
    rw [List.mem_range] at hk
    exact Arr.read_some (by omega))]
  congr 1
  apply List.ext_getElem?
  intro i
  rw [List.getElem?_map, List.getElem?_take, List.getElem?_drop]
  by_cases hi : i < c
  · rw [if_pos hi, List.getElem?_range hi, EdgeList.list_eq, Arr.pre_getElem? _ (by omega)]
    rfl
  · rw [if_neg hi, List.getElem?_eq_none (by simpa using hi)]
    rfl

theorem distributeOutgoing_root {nrank : Nat} (h : 0 < nrank) {el : EdgeList E} (hs : el.edges.size = el.nnz) :
    distributeOutgoing 0 nrank 0 el = some ((List.range nrank).map (edgeShare el.list nrank)) := by
  unfold distributeOutgoing
  obtain ⟨c, c1, c2, c3⟩ := distributeCounts_eq (nnz := el.nnz) h
  obtain ⟨p, p1, p2, p3⟩ := distributePositions_eq (nnz := el.nnz) h c2 c3
  rw [if_pos rfl, c1]
  simp only [Option.bind_eq_bind, Option.bind_some, if_true]
  rw [p1]
  simp only [Option.bind_some]
  refine mapM_some_map ?_
  intro b hb
  rw [List.mem_range] at hb
  rw [Arr.read_some (by omega), Arr.read_some (by omega)]
  simp only [Option.bind_some]
  rw [c3 b hb, p3 b hb]
  have := sharePos_le (nnz := el.nnz) (nrank := nrank) (b := b + 1) hb h
  rw [sharePos_succ] at this
  rw [readRange_eq hs this]
  unfold edgeShare
  rw [el.list_length]

theorem distributeOutgoing_other {nrank r : Nat} (hr : r ≠ 0) (el : EdgeList E) :
    distributeOutgoing 0 nrank r el = some ((List.range nrank).map (fun _ => [])) := by
  unfold distributeOutgoing
  rw [if_neg hr]
  simp only [Option.bind_eq_bind, Option.bind_some, if_neg hr]
  refine mapM_some_map ?_
  intro b hb
  rw [List.mem_range] at hb
  rw [Arr.read_some (by show b < nrank + 1; omega), Arr.read_some (by show b < nrank; omega)]
  rfl

/-- What the ranks have after the edges have been spread. -/
structure Spread (n nrank : Nat) (es : List (Edge E)) (els : List (EdgeList E)) : Prop where
  length : els.length = nrank
  made : ∀ el ∈ els, el.m = n ∧ el.n = n ∧ el.edges.size = el.nnz
  flatten : (els.map EdgeList.list).flatten = es
  even : ∀ a ∈ els, ∀ b ∈ els, a.nnz ≤ b.nnz + 1

theorem generated_spread (g : Nat → Nat → Edge E) {n nrank : Nat} (h : 0 < nrank) {es : List (Edge E)} {el : EdgeList E}
    (hm : Made n es el) (hfit : es.length ≤ IMAX) :
    ∃ els, generated g nrank (some el) = some els ∧ Spread n nrank es els := by
  obtain ⟨rfl, h2, h3, h4⟩ := hm
  unfold generated distributeEdges
  simp only [Option.bind_eq_bind, Option.bind_some]
  have hlen : (onRankZero g nrank el).length = nrank := by simp [onRankZero]
  have hget : ∀ r, r < nrank → (onRankZero g nrank el)[r]? = some (if r = 0 then el else EdgeList.alloc (g r) el.m el.n 0) := by
    intro r hr
    unfold onRankZero
    rw [List.getElem?_map, List.getElem?_range hr]
    rfl
  rw [hlen]
  have hout : (List.range nrank).mapM (fun r => ((onRankZero g nrank el)[r]?).bind (fun el => distributeOutgoing 0 nrank r el)) =
      some ((List.range nrank).map (fun r => (List.range nrank).map (fun b => if r = 0 then edgeShare el.list nrank b else []))) := by
    refine mapM_some_map ?_
    intro r hr
    rw [List.mem_range] at hr
    rw [hget r hr]
    simp only [Option.bind_some]
    by_cases h0 : r = 0
    · subst h0
      simp only [if_true]
      exact distributeOutgoing_root h h2
    · simp only [if_neg h0]
      exact distributeOutgoing_other h0 _
  rw [hout]
  simp only [Option.bind_some]
  refine ⟨(List.range nrank).map (fun r => ⟨Arr.ofList (g r 0) (edgeShare el.list nrank r), el.m, el.n,
    (edgeShare el.list nrank r).length⟩), ?_, by simp, ?_, ?_, ?_⟩
  · refine mapM_some_map ?_
    intro r hr
    rw [List.mem_range] at hr
    rw [hget r hr]
    simp only [Option.bind_some]
    unfold distributeReceive
    have hp : ((List.range nrank).map (fun q => (List.range nrank).map (fun b => if q = 0 then edgeShare el.list nrank b else []))).mapM
        (fun msgs => msgs[r]?) = some ((List.range nrank).map (fun q => if q = 0 then edgeShare el.list nrank r else [])) := by
      rw [mapM_some_map (h := fun msgs => msgs.getD r []) (by
        intro msgs hmsgs
        rw [List.mem_map] at hmsgs
        obtain ⟨q, _, rfl⟩ := hmsgs
        rw [List.getD_eq_getElem?_getD, List.getElem?_map, List.getElem?_range hr]
        rfl), List.map_map]
      congr 1
      apply List.map_congr_left
      intro q _
      show ((List.range nrank).map (fun b => if q = 0 then edgeShare el.list nrank b else [])).getD r [] = _
      rw [List.getD_eq_getElem?_getD, List.getElem?_map, List.getElem?_range hr]
      rfl
    rw [hp]
    have hf : ((List.range nrank).map (fun q => if q = 0 then edgeShare el.list nrank r else [])).flatten = edgeShare el.list nrank r := by
      obtain ⟨k, rfl⟩ : ∃ k, nrank = k + 1 := ⟨nrank - 1, by omega⟩
      rw [List.range_succ_eq_map, List.map_cons, List.flatten_cons, if_pos rfl, List.map_map]
      have : ((List.range k).map ((fun q => if q = 0 then edgeShare el.list (k + 1) r else []) ∘ Nat.succ)).flatten = [] := by
        rw [List.flatten_eq_nil_iff]
        intro l hl
        rw [List.mem_map] at hl
        obtain ⟨q, _, rfl⟩ := hl
        rfl
      rw [this, List.append_nil]
    simp only [Option.bind_eq_bind, Option.bind_some, hf]
    have hle : (edgeShare el.list nrank r).length ≤ el.list.length := by
      unfold edgeShare
      rw [List.length_take, List.length_drop]
      omega
    rw [ck_nat (Nat.le_trans hle hfit)]
    simp only [Option.bind_some]
    congr 2 <;> split <;> rfl
  · intro x hx
    rw [List.mem_map] at hx
    obtain ⟨r, _, rfl⟩ := hx
    exact ⟨h3, h4, rfl⟩
  · rw [List.map_map]
    have : ∀ r, (EdgeList.list ∘ (fun r => (⟨Arr.ofList (g r 0) (edgeShare el.list nrank r), el.m, el.n,
        (edgeShare el.list nrank r).length⟩ : EdgeList E))) r = edgeShare el.list nrank r := by
      intro r
      show EdgeList.list _ = _
      rw [EdgeList.list_eq]
      exact Arr.pre_ofList _ _
    rw [show (EdgeList.list ∘ _) = edgeShare el.list nrank from funext this]
    exact shareOf_all _ h
  · intro a ha b hb
    rw [List.mem_map] at ha hb
    obtain ⟨r, hr, rfl⟩ := ha
    obtain ⟨q, hq, rfl⟩ := hb
    rw [List.mem_range] at hr hq
    show (edgeShare _ _ r).length ≤ (edgeShare _ _ q).length + 1
    rw [shareOf_length _ hr, shareOf_length _ hq]
    unfold shareCount
    split <;> split <;> omega

end GraphMat

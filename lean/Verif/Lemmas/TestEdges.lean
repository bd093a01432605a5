import Verif.Model.TestEdges
import Verif.Lemmas.TestRuns
import Verif.Props.EdgeList

/-!
# The tests of the edge list functions
-/
namespace GraphMat

variable {E : Type}

/-- The same function on every rank. -/
theorem onLists_spec {f : Nat → EdgeList E → Option (EdgeList E)} {P : EdgeList E → EdgeList E → Prop} {els : List (EdgeList E)}
    (h : ∀ r el, el ∈ els → ∃ el', f r el = some el' ∧ P el el') :
    ∃ els', onLists f els = some els' ∧ List.Forall₂ P els els' := by
  unfold onLists
  obtain ⟨ys, y1, y2, y3⟩ := mapM_range_exists (k := els.length) (f := fun r => do
      let el ← els[r]?
      f r el) (P := fun r y => ∀ (hr : r < els.length), P els[r] y) (by
    intro r hr
    obtain ⟨el', e1, e2⟩ := h r els[r] (List.getElem_mem hr)
    refine ⟨el', ?_, fun _ => e2⟩
    rw [List.getElem?_eq_getElem hr]
    exact e1)
  refine ⟨ys, y1, List.forall₂_iff_get.mpr ⟨y2.symm, ?_⟩⟩
  intro i h1 h2
  exact y3 i _ (List.getElem?_eq_getElem h2) h1

theorem forall2_lists {F : List (Edge E) → List (Edge E)} {els els' : List (EdgeList E)}
    (h : List.Forall₂ (fun a b => b.WF ∧ b.list = F a.list) els els') :
    els'.map EdgeList.list = (els.map EdgeList.list).map F ∧ ∀ el ∈ els', el.WF := by
  induction h with
  | nil => exact ⟨rfl, by simp⟩
  | cons a _ ih =>
    obtain ⟨i1, i2⟩ := ih
    refine ⟨by simp only [List.map_cons, i1, a.2], ?_⟩
    intro el hel
    rcases List.mem_cons.mp hel with rfl | hel
    · exact a.1
    · exact i2 el hel

theorem nnz_sum (els : List (EdgeList E)) : (els.map EdgeList.nnz).sum = (els.map EdgeList.list).flatten.length := by
  rw [List.length_flatten, List.map_map]
  congr 1
  apply List.map_congr_left
  intro el _
  simp

/-- Every rank gets the edges of all ranks. -/
theorem collectEdges_spec (k : Nat → Edge E) {w : Nat} (hw : 1 ≤ w) {els : List (EdgeList E)} (hwf : ∀ el ∈ els, el.WF)
    (hfit : w * (els.map EdgeList.list).flatten.length ≤ IMAX) :
    ∃ out, collectEdges k w els = some out ∧ out.length = els.length ∧ ∀ el ∈ out, el.WF ∧ el.list = (els.map EdgeList.list).flatten := by
  have hoff : ∀ (l : List Nat) (acc : List Int) (s : Nat), acc.getLastD 0 = ((w * s : Nat) : Int) → w * (s + l.sum) ≤ IMAX →
      ∃ o, l.foldlM (fun (acc : List Int) (c : Nat) => do
        let x ← cmul w c
        let o ← cadd (acc.getLastD 0) x
        some (acc ++ [o])) acc = some o := by
    intro l
    induction l with
    | nil => intro acc s _ _; exact ⟨acc, rfl⟩
    | cons c l ih =>
      intro acc s hs hl
      rw [List.sum_cons] at hl
      have e1 : w * c ≤ IMAX := Nat.le_trans (Nat.mul_le_mul_left w (by omega)) hl
      have e2 : w * (s + c) ≤ IMAX := Nat.le_trans (Nat.mul_le_mul_left w (by omega)) hl
      rw [List.foldlM_cons]
      simp only [Option.bind_eq_bind]
      unfold cmul cadd
      rw [← Int.natCast_mul, ck_nat e1]
      simp only [Option.bind_some]
      rw [hs, ← Int.natCast_add, ← Nat.mul_add, ck_nat e2]
      simp only [Option.bind_some]
      exact ih _ (s + c) (by simp) (by rw [Nat.add_assoc]; exact hl)
  have hsum := nnz_sum els
  unfold collectEdges
  obtain ⟨o, o1⟩ := hoff (els.map EdgeList.nnz).dropLast [0] 0 (by simp) (by
    refine Nat.le_trans (Nat.mul_le_mul_left w ?_) hfit
    rw [← hsum, Nat.zero_add]
    exact ((List.dropLast_sublist _).sum_le_sum (by simp)))
  unfold collectOffsets
  rw [o1]
  simp only [Option.bind_eq_bind, Option.bind_some]
  rw [mapM_some_map (h := fun el => ((w * el.nnz : Nat) : Int)) (by
    intro el hel
    unfold cmul
    rw [← Int.natCast_mul, ck_nat]
    refine Nat.le_trans (Nat.mul_le_mul_left w ?_) hfit
    rw [← hsum]
    exact List.single_le_sum (by simp) _ (List.mem_map_of_mem hel))]
  simp only [Option.bind_some]
  rw [mapM_some_map (h := EdgeList.list) (by
    intro el hel
    exact mapM_some_map (h := el.edges.get) (fun i hi => Arr.read_some (Nat.lt_of_lt_of_le (List.mem_range.mp hi) (hwf el hel))))]
  simp only [Option.bind_some]
  rw [ck_nat (Nat.le_trans (Nat.le_mul_of_pos_left _ hw) hfit)]
  simp only [Option.bind_some]
  obtain ⟨ys, y1, y2, y3⟩ := mapM_range_exists (k := els.length) (f := fun r => do
      let el ← els[r]?
      some ({ edges := Arr.ofList (k r) (els.map EdgeList.list).flatten, m := el.m, n := el.n,
              nnz := (els.map EdgeList.list).flatten.length } : EdgeList E))
    (P := fun _ y => y.WF ∧ y.list = (els.map EdgeList.list).flatten) (by
    intro r hr
    rw [List.getElem?_eq_getElem hr]
    exact ⟨_, rfl, Nat.le_refl _, Arr.pre_ofList _ _⟩)
  refine ⟨ys, y1, y2, ?_⟩
  intro el hel
  obtain ⟨i, hi, rfl⟩ := List.getElem_of_mem hel
  exact y3 i _ (List.getElem?_eq_getElem hi)

theorem requireLists_true {ok : EdgeList E → Option Bool} {els : List (EdgeList E)} (h : ∀ el ∈ els, ok el = some true) :
    requireLists ok els = some true := by
  unfold requireLists
  rw [mapM_some_map (h := fun _ => true) h]
  simp

theorem requireEdges_eq (ok : Edge E → Bool) {el : EdgeList E} (h : el.WF) : requireEdges ok el = some (el.list.all ok) := by
  unfold requireEdges
  obtain ⟨b, b1, b2⟩ := forLoop_inv (lo := 0) (hi := el.nnz) (s := true) (body := fun i b => do
      let e ← el.edges.read i
      some (b && ok e)) (fun i b => b = ((List.range i).map el.edges.get).all ok) (Nat.zero_le _) rfl (by
    intro i b _ hi hb
    rw [Arr.read_some (Nat.lt_of_lt_of_le hi h)]
    refine ⟨_, rfl, ?_⟩
    rw [hb, List.range_succ, List.map_append, List.all_append]
    simp)
  rw [b1, b2]
  rfl

theorem spread_wf {n nrank : Nat} {es : List (Edge E)} {els : List (EdgeList E)} (h : Spread n nrank es els) : ∀ el ∈ els, el.WF := by
  intro el hel
  unfold EdgeList.WF
  rw [(h.made el hel).2.2]

theorem spread_mem {n nrank : Nat} {es : List (Edge E)} {els : List (EdgeList E)} (h : Spread n nrank es els) {el : EdgeList E}
    (hel : el ∈ els) {e : Edge E} (he : e ∈ el.list) : e ∈ es := by
  rw [← h.flatten, List.mem_flatten]
  exact ⟨_, List.mem_map_of_mem hel, he⟩

theorem spread_nnz {n nrank : Nat} {es : List (Edge E)} {els : List (EdgeList E)} (h : Spread n nrank es els) {el : EdgeList E}
    (hel : el ∈ els) : el.nnz ≤ es.length := by
  have := nnz_sum els
  rw [h.flatten] at this
  rw [← this]
  exact List.single_le_sum (by simp) _ (List.mem_map_of_mem hel)

theorem dense_offdiag (one : E) (n : Nat) : ((denseEdges one n).filter (fun e => decide (e.src ≠ e.dst))).length = n * (n - 1) := by
  unfold denseEdges
  rw [List.filter_flatMap, List.length_flatMap]
  rw [← sum_const]
  congr 1
  apply List.map_congr_left
  intro i hi
  rw [List.filter_map, List.length_map]
  have : (List.range n).filter ((fun e : Edge E => decide (e.src ≠ e.dst)) ∘ fun (j : Nat) => ⟨(i : Int) + 1, (j : Int) + 1, one⟩) =
      (List.range n).erase i := by
    rw [List.nodup_range.erase_eq_filter]
    apply List.filter_congr
    intro j _
    simp only [Function.comp_apply]
    rw [Bool.eq_iff_iff]
    simp only [decide_eq_true_eq, bne_iff_ne]
    omega
  rw [this, List.length_erase_of_mem hi, List.length_range]

theorem sortWith_list {sort : List (Edge E) → List (Edge E)} {el : EdgeList E} (h : (sort el.list).Perm el.list) :
    (el.sortWith sort).list = sort el.list := by
  have hl : (sort el.list).length = el.nnz := by rw [h.length_eq]; simp
  unfold EdgeList.sortWith EdgeList.list
  apply List.ext_getElem
  · simp only [List.length_map, List.length_range]; exact hl.symm
  · intro i h1 h2
    simp only [List.getElem_map, List.getElem_range]
    rw [List.getD_eq_getElem?_getD, List.getElem?_eq_getElem h2]
    rfl

theorem dense_ends_nodup (one : E) (n : Nat) : ((denseEdges one n).map (fun e => (e.src, e.dst))).Nodup := dense_noParallel n

theorem dense_swap (one : E) (n : Nat) : ((denseEdges one n).map Edge.swap).Perm (denseEdges one n) := by
  have hd : (denseEdges one n).Nodup := (dense_ends_nodup one n).of_map _
  rw [List.perm_ext_iff_of_nodup (hd.map (fun a b h => by
    have h1 := congrArg Edge.src h
    have h2 := congrArg Edge.dst h
    have h3 := congrArg Edge.val h
    cases a; cases b
    simp only [Edge.swap] at h1 h2 h3
    simp only [h1, h2, h3])) hd]
  intro e
  rw [List.mem_map, mem_denseEdges]
  constructor
  · rintro ⟨f, hf, rfl⟩
    obtain ⟨a1, a2, a3, a4, a5⟩ := mem_denseEdges.mp hf
    exact ⟨a3, a4, a1, a2, a5⟩
  · rintro ⟨a1, a2, a3, a4, a5⟩
    exact ⟨e.swap, mem_denseEdges.mpr ⟨a3, a4, a1, a2, a5⟩, rfl⟩

theorem flatMap_swap_perm (l : List (Edge E)) : (l.flatMap (fun e => [e, e.swap])).Perm (l ++ l.map Edge.swap) := by
  induction l with
  | nil => exact List.Perm.refl _
  | cons a l ih =>
    simp only [List.flatMap_cons, List.map_cons, List.cons_append, List.nil_append]
    refine List.Perm.cons a ?_
    exact (ih.cons _).trans List.perm_middle.symm

theorem flatMap_twice_perm (l : List (Edge E)) : (l.flatMap (fun e => [e, e])).Perm (l ++ l) := by
  induction l with
  | nil => exact List.Perm.refl _
  | cons a l ih =>
    simp only [List.flatMap_cons, List.cons_append, List.nil_append]
    refine List.Perm.cons a ?_
    exact (ih.cons _).trans List.perm_middle.symm

/-- The complete graph is listed in increasing order. -/
theorem dense_sorted (one : E) (n : Nat) :
    (denseEdges one n).Pairwise (fun a b => a.src < b.src ∨ (a.src = b.src ∧ a.dst < b.dst)) := by
  unfold denseEdges
  rw [List.pairwise_flatMap]
  refine ⟨?_, ?_⟩
  · intro i _
    rw [List.pairwise_map]
    refine List.Pairwise.imp ?_ List.pairwise_lt_range
    intro a b h
    exact Or.inr ⟨rfl, by simp only; omega⟩
  · refine List.Pairwise.imp ?_ List.pairwise_lt_range
    intro a b h x hx y hy
    obtain ⟨_, _, rfl⟩ := List.mem_map.mp hx
    obtain ⟨_, _, rfl⟩ := List.mem_map.mp hy
    left
    simp only
    omega

/-- Sorting twice the complete graph gives every edge twice in a row. -/
theorem sort_twice_dense {lt : E → E → Bool} {one : E} (h1 : lt one one = false) {n : Nat} {l l' : List (Edge E)}
    (hp : l.Perm (denseEdges one n ++ denseEdges one n)) (hl : l'.Perm l) (hs : l'.Pairwise (fun a b => edgeCompare lt b a = false)) :
    l' = (denseEdges one n).flatMap (fun e => [e, e]) := by
  have hq := (hl.trans hp).trans (flatMap_twice_perm (denseEdges one n)).symm
  refine hq.eq_of_pairwise (le := fun a b => edgeCompare lt b a = false) ?_ hs ?_
  · intro a b ha hb hab hba
    have hval : ∀ x, x ∈ denseEdges one n ++ denseEdges one n → x.val = one := by
      intro x hx
      rcases List.mem_append.mp hx with h | h <;> exact (mem_denseEdges.mp h).2.2.2.2
    have va := hval a ((hl.trans hp).subset ha)
    have vb := hval b ((flatMap_twice_perm _).subset hb)
    unfold edgeCompare at hab hba
    simp only [Bool.or_eq_false_iff, Bool.and_eq_false_iff, decide_eq_false_iff_not] at hab hba
    cases a; cases b
    simp only at va vb hab hba
    subst va vb
    simp only [Edge.mk.injEq, and_true]
    omega
  · rw [List.pairwise_flatMap]
    refine ⟨?_, ?_⟩
    · intro e he
      have ve := (mem_denseEdges.mp he).2.2.2.2
      have : edgeCompare lt e e = false := by
        unfold edgeCompare
        rw [ve, h1]
        simp
      simp [this]
    · refine (dense_sorted one n).imp ?_
      intro a b h x hx y hy
      have hx' : x = a := by simpa using hx
      have hy' : y = b := by simpa using hy
      subst hx' hy'
      unfold edgeCompare
      simp only [Bool.or_eq_false_iff, Bool.and_eq_false_iff, decide_eq_false_iff_not]
      omega

theorem twice_getElem? : ∀ (l : List (Edge E)) (i : Nat),
    (l.flatMap (fun e => [e, e]))[2 * i]? = l[i]? ∧ (l.flatMap (fun e => [e, e]))[2 * i + 1]? = l[i]? := by
  intro l
  induction l with
  | nil => intro i; simp
  | cons a l ih =>
    intro i
    cases i with
    | zero => simp
    | succ i =>
      obtain ⟨i1, i2⟩ := ih i
      simp only [List.flatMap_cons, List.cons_append, List.nil_append]
      rw [show 2 * (i + 1) = 2 * i + 1 + 1 by omega]
      simp only [List.getElem?_cons_succ]
      exact ⟨i1, i2⟩

theorem requirePairs_true {eq : E → E → Bool} {one : E} (h1 : eq one one = true) {n : Nat} {el : EdgeList E} (hwf : el.WF)
    (hl : el.list = (denseEdges one n).flatMap (fun e => [e, e])) : requirePairs eq el = some true := by
  have hlen : el.nnz = 2 * (denseEdges one n).length := by
    have := congrArg List.length hl
    rw [EdgeList.list_length, (flatMap_twice_perm _).length_eq, List.length_append] at this
    omega
  have hget : ∀ j, j < el.nnz → some (el.edges.get j) = ((denseEdges one n).flatMap (fun e => [e, e]))[j]? := by
    intro j hj
    rw [← hl]
    exact (Arr.pre_getElem? el.edges hj).symm
  unfold requirePairs
  obtain ⟨b, b1, b2⟩ := forLoop_inv (lo := 0) (hi := el.nnz / 2) (s := true) (body := fun i b => do
      let x ← el.edges.read (2 * i)
      let y ← el.edges.read (2 * i + 1)
      some (b && (decide (x.src = y.src) && decide (x.dst = y.dst) && eq x.val y.val))) (fun _ b => b = true) (Nat.zero_le _) rfl (by
    rintro i _ _ hi rfl
    have hw : el.nnz ≤ el.edges.size := hwf
    rw [Arr.read_some (show 2 * i < el.edges.size by omega), Arr.read_some (show 2 * i + 1 < el.edges.size by omega)]
    refine ⟨_, rfl, ?_⟩
    have g1 := hget (2 * i) (by omega)
    have g2 := hget (2 * i + 1) (by omega)
    obtain ⟨t1, t2⟩ := twice_getElem? (denseEdges one n) i
    rw [t1] at g1
    rw [t2, ← g1] at g2
    have hm : el.edges.get (2 * i) ∈ denseEdges one n := List.mem_of_getElem? g1.symm
    rw [Option.some.inj g2, (mem_denseEdges.mp hm).2.2.2.2, h1]
    simp)
  rw [b1, b2]

theorem requireFiltered_true {el out : EdgeList E} (hwf : el.WF) (hwo : out.WF)
    (hp : out.list.Perm (el.list.filter srcDivBy3)) : requireFiltered el out = some true := by
  have hnn : out.nnz = el.list.countP srcDivBy3 := by
    have := hp.length_eq
    rw [EdgeList.list_length, ← List.countP_eq_length_filter] at this
    exact this
  unfold requireFiltered
  obtain ⟨r, r1, r2, r3⟩ := forLoop_inv (lo := 0) (hi := el.nnz) (s := (true, 0)) (body := fun i (s : Bool × Nat) => do
      let e ← el.edges.read i
      if srcDivBy3 e then do
        let x ← out.edges.read s.2
        some (s.1 && srcDivBy3 x, s.2 + 1)
      else some s) (fun i s => s.1 = true ∧ s.2 = (el.edges.pre i).countP srcDivBy3) (Nat.zero_le _) ⟨rfl, rfl⟩ (by
    rintro i ⟨b, k⟩ _ hi ⟨rfl, hk⟩
    simp only at hk
    rw [Arr.read_some (Nat.lt_of_lt_of_le hi hwf)]
    simp only [Option.bind_eq_bind, Option.bind_some]
    by_cases h : srcDivBy3 (el.edges.get i) = true
    · rw [if_pos h]
      have hlt : k < out.nnz := by
        have h2 : (el.edges.pre (i + 1)).countP srcDivBy3 ≤ (el.edges.pre el.nnz).countP srcDivBy3 := by
          unfold Arr.pre
          apply List.Sublist.countP_le
          exact (List.range_sublist.mpr hi).map _
        rw [Arr.pre_succ, List.countP_append] at h2
        simp only [List.countP_cons, List.countP_nil, h, if_true] at h2
        rw [hnn, hk]
        show _ < (el.edges.pre el.nnz).countP srcDivBy3
        omega
      rw [Arr.read_some (Nat.lt_of_lt_of_le hlt hwo)]
      refine ⟨_, rfl, ?_, ?_⟩
      · have hm : out.edges.get k ∈ out.list := Arr.mem_pre.mpr ⟨k, hlt, rfl⟩
        have := (List.mem_filter.mp (hp.subset hm)).2
        simp [this]
      · rw [Arr.pre_succ, List.countP_append, hk]
        simp [h]
    · rw [if_neg h]
      refine ⟨_, rfl, rfl, ?_⟩
      rw [Arr.pre_succ, List.countP_append, hk]
      simp [h])
  rw [r1]
  simp only [Option.bind_eq_bind, Option.bind_some, r2, r3, Bool.true_and, Option.some.injEq, decide_eq_true_eq]
  exact hnn

end GraphMat

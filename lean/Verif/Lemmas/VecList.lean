import Verif.Lemmas.World

/-! Lists of all entries of a distributed vector: counting and enumeration. -/
namespace GraphMat

variable {α β γ σ V : Type}

theorem forLoop_append {lo hi : Nat} (hle : lo ≤ hi) (acc : List β)
    {body : Nat → List β → Option (List β)} {F : Nat → List β}
    (h : ∀ i, lo ≤ i → i < hi → ∀ a, body i a = some (a ++ F i)) :
    forLoop lo hi acc body = some (acc ++ (List.range' lo (hi - lo)).flatMap F) := by
  obtain ⟨r, h1, h2⟩ := forLoop_inv (lo := lo) (hi := hi) (s := acc) (body := body)
    (fun k a => a = acc ++ (List.range' lo (k - lo)).flatMap F) hle (by simp) (by
      intro i a h1 h2 e
      refine ⟨_, h i h1 h2 a, ?_⟩
      subst e
      have : i + 1 - lo = (i - lo) + 1 := by omega
      rw [this, List.range'_concat, List.flatMap_append]
      simp
      congr 2; omega)
  rw [h1, h2]

theorem forLoop_count {lo hi : Nat} (hle : lo ≤ hi) (acc : Nat)
    {body : Nat → Nat → Option Nat} {F : Nat → List β}
    (h : ∀ i, lo ≤ i → i < hi → ∀ a, body i a = some (a + (F i).length)) :
    forLoop lo hi acc body = some (acc + ((List.range' lo (hi - lo)).flatMap F).length) := by
  obtain ⟨r, h1, h2⟩ := forLoop_inv (lo := lo) (hi := hi) (s := acc) (body := body)
    (fun k a => a = acc + ((List.range' lo (k - lo)).flatMap F).length) hle (by simp) (by
      intro i a h1 h2 e
      refine ⟨_, h i h1 h2 a, ?_⟩
      subst e
      have e1 : i + 1 - lo = (i - lo) + 1 := by omega
      have e2 : lo + (i - lo) = i := by omega
      rw [e1, List.range'_concat, List.flatMap_append, Nat.one_mul, e2]
      simp [Nat.add_assoc])
  rw [h1, h2]

theorem flatMap_ext {l : List γ} {f g : γ → List β} (h : ∀ i ∈ l, f i = g i) :
    l.flatMap f = l.flatMap g := by
  induction l with
  | nil => rfl
  | cons a l ih =>
    rw [List.flatMap_cons, List.flatMap_cons, h a List.mem_cons_self,
      ih (fun i hi => h i (List.mem_cons_of_mem _ hi))]

theorem flatMap_append_perm' (l : List γ) (f g : γ → List β) :
    (l.flatMap (fun x => f x ++ g x)).Perm (l.flatMap f ++ l.flatMap g) := by
  induction l with
  | nil => simp
  | cons a l ih =>
    simp only [List.flatMap_cons]
    refine (List.Perm.append_left _ ih).trans ?_
    simp only [List.append_assoc]
    refine List.Perm.append_left _ ?_
    simp only [← List.append_assoc]
    exact List.Perm.append_right _ List.perm_append_comm

/-- The entries of one segment, in order. -/
def Segment.items (s : Segment α) (F : Nat → α → β) : List β :=
  (List.range s.capacity).flatMap (fun i => ((s.view i).map (F i)).toList)

theorem length_flatMap_option (l : List Nat) (f : Nat → Option β) :
    (l.flatMap (fun i => (f i).toList)).length = l.countP (fun i => (f i).isSome) := by
  induction l with
  | nil => rfl
  | cons a l ih =>
    rw [List.flatMap_cons, List.length_append, ih, List.countP_cons]
    cases f a <;> simp [Nat.add_comm]

theorem Segment.items_length (s : Segment α) (F : Nat → α → β) :
    (s.items F).length = (List.range s.capacity).countP (fun i => (s.view i).isSome) := by
  unfold Segment.items
  rw [length_flatMap_option]
  simp

theorem Segment.getEdges_spec {s : Segment α} (h : s.WF) (hr : s.Ready) (st : Nat) :
    s.getEdges st = some (s.items (fun i v => ⟨(st : Int) + i + 1, 1, v⟩)) := by
  obtain ⟨b, hb, hu⟩ := hr
  unfold Segment.getEdges
  have hd := h.dims b hb
  have hni := h.ni
  rw [forLoop_append (F := fun i => ((s.view i).map
    (fun v => (⟨(st : Int) + i + 1, 1, v⟩ : Edge α))).toList) (Nat.zero_le _)]
  · simp [Segment.items, List.range_eq_range']
  · intro i _ hi a
    rw [hb]
    simp only [Option.bind_eq_bind, Option.bind_some]
    rw [getBitvector_eq (by rw [hd.bits]; omega)]
    simp only [Option.bind_some, Segment.view, hb, Buffer.view_of_init hu]
    rw [hd.value]
    by_cases hbit : bitAt b.bits i = true
    · rw [if_pos hbit, if_pos ⟨hi, hbit⟩, Arr.read_some (by rw [hd.value]; exact hi)]
      simp
    · rw [if_neg hbit, if_neg (by simp [hbit])]; simp

/-- Enumeration of a vector by segments equals enumeration by index. -/
theorem flatMap_segments {n nseg : Nat} (hs : 0 < nseg) (F : Nat → List β) :
    (List.range nseg).flatMap (fun p =>
      (List.range (bnd n nseg (p + 1) - bnd n nseg p)).flatMap (fun i => F (bnd n nseg p + i + 1))) =
    (List.range n).flatMap (fun j => F (j + 1)) := by
  have key : ∀ k, k ≤ nseg → (List.range k).flatMap (fun p =>
      (List.range (bnd n nseg (p + 1) - bnd n nseg p)).flatMap (fun i => F (bnd n nseg p + i + 1))) =
    (List.range (bnd n nseg k)).flatMap (fun j => F (j + 1)) := by
    intro k
    induction k with
    | zero => intro _; rw [bnd_zero hs]; rfl
    | succ k ih =>
      intro hk
      rw [List.range_succ, List.flatMap_append, ih (by omega)]
      have hm : bnd n nseg k ≤ bnd n nseg (k + 1) := bnd_mono
      have e : bnd n nseg (k + 1) = bnd n nseg k + (bnd n nseg (k + 1) - bnd n nseg k) := by omega
      conv => rhs; rw [e, List.range_add]
      rw [List.flatMap_append]
      simp [List.flatMap_map]
  rw [key nseg (Nat.le_refl _), bnd_last]


/-- Rank that owns internal index `w`. -/
def ownerOf (n nseg nrank w : Nat) : Nat :=
  match getPartition n nseg w with
  | some p => p % nrank
  | none => nrank

theorem ownerOf_of {n nseg nrank w p : Nat} (h : getPartition n nseg w = some p) :
    ownerOf n nseg nrank w = p % nrank := by
  unfold ownerOf; rw [h]

theorem ownerOf_lt {n nseg nrank w : Nat} (hs : 0 < nseg) (hr : 0 < nrank) (h1 : 1 ≤ w)
    (h2 : w ≤ n) : ownerOf n nseg nrank w < nrank := by
  obtain ⟨p, hp, _⟩ := locate hs h1 h2
  rw [ownerOf_of hp]; exact Nat.mod_lt _ hr

/-- The entries rank `r` owns, in index order. -/
def DVec.items (n nseg nrank : Nat) (d : DVec α) (r : Nat) (F : Nat → α → β) : List β :=
  (List.range n).flatMap (fun j =>
    if ownerOf n nseg nrank (j + 1) = r then ((d.sem n nseg nrank (j + 1)).map (F (j + 1))).toList
    else [])

theorem partition_of_offset {n nseg p i : Nat} (hp : p < nseg)
    (hi : i < bnd n nseg (p + 1) - bnd n nseg p) :
    getPartition n nseg ((bnd n nseg p + i + 1 : Nat) : Int) = some p := by
  rw [getPartition_iff]; omega

theorem DVec.items_eq {n nseg nrank : Nat} {d : DVec α} (h : d.WF n nseg nrank) (hs : 0 < nseg)
    {r : Nat} (hr : r < nrank) (F : Nat → α → β) :
    (List.range' 0 (nseg - 0)).flatMap (fun p =>
      if p % nrank = r then
        ((d.get r).segs.get p).items (fun i v => F (bnd n nseg p + i + 1) v) else []) =
    d.items n nseg nrank r F := by
  unfold DVec.items
  rw [← flatMap_segments hs (fun w => if ownerOf n nseg nrank w = r then
    ((d.sem n nseg nrank w).map (F w)).toList else [])]
  rw [Nat.sub_zero, ← List.range_eq_range']
  apply flatMap_ext
  intro p hp
  have hp := List.mem_range.mp hp
  have hcap := (h.rank r hr).cap p hp
  by_cases e : p % nrank = r
  · rw [if_pos e]
    unfold Segment.items
    rw [hcap]
    apply flatMap_ext
    intro i hi
    have hi := List.mem_range.mp hi
    have hq := partition_of_offset hp hi
    rw [ownerOf_of hq, if_pos e, DVec.sem_of hq]
    unfold DVec.own
    rw [e]
    have : bnd n nseg p + i + 1 - bnd n nseg p - 1 = i := by omega
    rw [this]
  · rw [if_neg e]
    symm
    rw [List.flatMap_eq_nil_iff]
    intro i hi
    have hi := List.mem_range.mp hi
    have hq := partition_of_offset hp hi
    rw [ownerOf_of hq, if_neg e]

theorem DVec.localNNZ_spec {n nseg nrank : Nat} {d : DVec α} (h : d.WF n nseg nrank) (hs : 0 < nseg)
    {r : Nat} (hr : r < nrank) (F : Nat → α → β) :
    (d.get r).localNNZ = some (d.items n nseg nrank r F).length := by
  have hw := h.rank r hr
  unfold SpVec.localNNZ
  rw [hw.hseg, forLoop_count (F := fun p => if p % nrank = r then
    ((d.get r).segs.get p).items (fun i v => F (bnd n nseg p + i + 1) v) else []) (Nat.zero_le _)]
  · rw [DVec.items_eq h hs hr, Nat.zero_add]
  · intro i _ hi a
    rw [hw.owns (by omega)]
    simp only [Option.bind_eq_bind, Option.bind_some]
    by_cases e : i % nrank = r
    · rw [if_pos (by simpa using e), if_pos e, Arr.read_some (by rw [hw.size]; exact hi)]
      simp only [Option.bind_some]
      rw [Segment.computeNnz_spec (hw.seg i hi), Segment.items_length]
      rfl
    · rw [if_neg (by simpa using e), if_neg e]; rfl

theorem DVec.getEdges_spec {n nseg nrank : Nat} {d : DVec α} (h : d.WF n nseg nrank) (hs : 0 < nseg)
    (hrd : d.Ready nseg nrank) {r : Nat} (hr : r < nrank) :
    (d.get r).getEdges = some (d.items n nseg nrank r (fun w v => ⟨(w : Int), 1, v⟩)) := by
  have hw := h.rank r hr
  unfold SpVec.getEdges
  rw [DVec.localNNZ_spec h hs hr (fun w v => (⟨(w : Int), 1, v⟩ : Edge α))]
  simp only [Option.bind_eq_bind, Option.bind_some]
  by_cases hz : (d.items n nseg nrank r (fun w v => (⟨(w : Int), 1, v⟩ : Edge α))).length > 0
  · rw [if_pos hz, hw.hseg, forLoop_append (F := fun p => if p % nrank = r then
      ((d.get r).segs.get p).items
        (fun i v => (⟨((bnd n nseg p + i + 1 : Nat) : Int), 1, v⟩ : Edge α)) else []) (Nat.zero_le _)]
    · rw [Option.bind_some, DVec.items_eq h hs hr (fun w v => (⟨(w : Int), 1, v⟩ : Edge α))]
      simp
    · intro i _ hi a
      rw [hw.owns (by omega)]
      simp only [Option.bind_some]
      by_cases e : i % nrank = r
      · rw [if_pos (by simpa using e), if_pos e, Arr.read_some (by rw [hw.size]; exact hi),
          hw.startId (by omega)]
        simp only [Option.bind_some]
        have hrr := hrd i hi
        unfold DVec.own at hrr
        rw [e] at hrr
        rw [Segment.getEdges_spec (hw.seg i hi) hrr]
        simp
      · rw [if_neg (by simpa using e), if_neg e]; simp
  · rw [if_neg hz]
    congr 1
    exact (List.eq_nil_of_length_eq_zero (by omega)).symm

/-- Splitting a list by owner and concatenating is a permutation. -/
theorem perm_by_owner {nrank : Nat} (l : List Nat) (o : Nat → Nat) (F : Nat → List β)
    (h : ∀ j ∈ l, o j < nrank) :
    ((List.range nrank).flatMap (fun r => l.flatMap (fun j => if o j = r then F j else []))).Perm
      (l.flatMap F) := by
  induction l with
  | nil => simp
  | cons a l ih =>
    have ih := ih (fun j hj => h j (List.mem_cons_of_mem _ hj))
    simp only [List.flatMap_cons]
    refine List.Perm.trans (flatMap_append_perm' _ _ _) ?_
    refine List.Perm.append ?_ ih
    have ha := h a List.mem_cons_self
    have : ∀ k, (List.range k).flatMap (fun r => if o a = r then F a else []) =
        if o a < k then F a else [] := by
      intro k
      induction k with
      | zero => simp
      | succ k ihk =>
        rw [List.range_succ, List.flatMap_append, ihk]
        by_cases e : o a = k
        · rw [if_neg (by omega), if_pos (by omega)]; simp [e]
        · by_cases e2 : o a < k
          · rw [if_pos e2, if_pos (by omega)]; simp [e]
          · rw [if_neg e2, if_neg (by omega)]; simp [e]
    rw [this, if_pos ha]

/-- The number of entries over all ranks is the number of ids present. -/
theorem DVec.getNNZ_spec {n nseg nrank : Nat} {d : DVec α} (h : d.WF n nseg nrank) (hs : 0 < nseg)
    (hr : 0 < nrank) :
    d.getNNZ = some ((List.range n).countP (fun j => (d.sem n nseg nrank (j + 1)).isSome)) := by
  unfold DVec.getNNZ
  rw [h.size, forLoop_count (F := fun r => d.items n nseg nrank r (fun w _ => w)) (Nat.zero_le _)]
  · rw [Nat.zero_add, Nat.sub_zero, ← List.range_eq_range']
    unfold DVec.items
    rw [(perm_by_owner (nrank := nrank) (List.range n) (fun j => ownerOf n nseg nrank (j + 1))
      (fun j => ((d.sem n nseg nrank (j + 1)).map (fun _ => j + 1)).toList) (by
        intro j hj
        have := List.mem_range.mp hj
        exact ownerOf_lt hs hr (by omega) (by omega))).length_eq]
    rw [length_flatMap_option]
    simp
  · intro i _ hi a
    rw [Arr.read_some (by rw [h.size]; exact hi)]
    simp only [Option.bind_eq_bind, Option.bind_some]
    rw [DVec.localNNZ_spec h hs hi (fun w _ => w)]
    rfl

end GraphMat

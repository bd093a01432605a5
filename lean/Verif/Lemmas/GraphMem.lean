import Verif.Lemmas.VecMem
import Verif.Spec.GraphLife

namespace GraphMat

variable {N : Nat}

/-! ### Facts about results only -/

/-- whenever `p` ends, `P` holds of the result -/
def Rets {α : Type} (p : HeapM α) (P : α → Prop) : Prop := ∀ h a h', p h = some (a, h') → P a

theorem Rets.bind {α β : Type} {p : HeapM α} {f : α → HeapM β} {P : α → Prop} {R : β → Prop} (hp : Rets p P)
    (hf : ∀ a, P a → Rets (f a) R) : Rets (p >>= f) R := by
  intro h b h' e
  have e' : (p h).bind (fun x => f x.1 x.2) = some (b, h') := e
  cases hx : p h with
  | none => rw [hx] at e'; cases e'
  | some x =>
    rw [hx] at e'
    exact hf x.1 (hp h x.1 x.2 hx) x.2 b h' e'

theorem Rets.any {α : Type} (p : HeapM α) : Rets p (fun _ => True) := fun _ _ _ _ => trivial

theorem Rets.pure {α : Type} {a : α} {P : α → Prop} (q : P a) : Rets (Pure.pure a) P := by
  intro h b h' e
  have e' : some (a, h) = some (b, h') := e
  cases e'
  exact q

theorem Rets.mono {α : Type} {p : HeapM α} {P R : α → Prop} (hp : Rets p P) (h : ∀ a, P a → R a) : Rets p R :=
  fun g a g' e => h a (hp g a g' e)

/-- after a step whose result does not matter -/
theorem Rets.skip {α β : Type} {p : HeapM α} {f : α → HeapM β} {R : β → Prop} (hf : ∀ a, Rets (f a) R) : Rets (p >>= f) R :=
  (Rets.any p).bind (fun a _ => hf a)

theorem Runs.with {α : Type} {p : HeapM α} {L : List (Nat × Alloc)} {Q : α → List (Nat × Alloc) → Prop} {P : α → Prop}
    (hp : Runs p L Q) (hr : Rets p P) : Runs p L (fun a X => P a ∧ Q a X) := by
  intro h hh
  obtain ⟨a, h', X, e, hX, q⟩ := hp h hh
  exact ⟨a, h', X, e, hX, hr h a h' e, q⟩

theorem rets_mapM {α β : Type} {f : α → HeapM β} {R : α → β → Prop} (hf : ∀ a, Rets (f a) (R a)) :
    ∀ as : List α, Rets (as.mapM f) (fun bs => List.Forall₂ R as bs) := by
  intro as
  induction as with
  | nil =>
    rw [List.mapM_nil]
    exact Rets.pure List.Forall₂.nil
  | cons a as ih =>
    rw [List.mapM_cons]
    refine (hf a).bind (fun b hb => ?_)
    refine ih.bind (fun bs hbs => ?_)
    exact Rets.pure (List.Forall₂.cons hb hbs)

/-! ### Sizes of matrices -/

theorem DcscMem.make_nnz (k : Nat) : Rets (DcscMem.make k) (fun t => t.nnz = k) := by
  unfold DcscMem.make
  split
  · repeat refine Rets.skip (fun _ => ?_)
    exact Rets.pure rfl
  · exact Rets.pure rfl

theorem DcscMem.load_nnz (k : Nat) (t : DcscMem) : Rets (DcscMem.load k t) (fun t => t.nnz = k) := by
  unfold DcscMem.load
  split
  · repeat refine Rets.skip (fun _ => ?_)
    exact Rets.pure rfl
  · exact Rets.pure rfl

theorem DcscMem.Good.length {t : DcscMem} (h : t.Good) : t.blocks.length = if 0 < t.nnz then 7 else 0 := by
  unfold DcscMem.blocks
  split
  · rename_i hn
    obtain ⟨h1, h2, h3, h4, h5, h6, h7⟩ := h hn
    simp only [List.length_append, own_length h1, own_length h2, own_length h3, own_length h4, own_length h5, own_length h6,
      own_length h7]
  · rfl

/-- the tile at a place fits its number of edges -/
def PlaceFits (c : Option Nat) (t : Option (Ptr × DcscMem × Nat)) : Prop :=
  match c, t with
  | none, none => True
  | some k, some t => t.2.1.nnz = k
  | _, _ => False

theorem newTile_fits (c : Option Nat) : Rets (newTile dcscClass c) (PlaceFits c) := by
  match c with
  | none => exact Rets.pure trivial
  | some 0 =>
    refine Rets.skip (fun _ => Rets.pure ?_)
    rfl
  | some (k + 1) =>
    refine Rets.skip (fun _ => ?_)
    refine (DcscMem.make_nnz (k + 1)).bind (fun t ht => Rets.pure ?_)
    exact ht

theorem loadTile_fits (c : Option Nat) : Rets (loadTile dcscClass c) (PlaceFits c) := by
  match c with
  | none => exact Rets.pure trivial
  | some k =>
    refine Rets.skip (fun _ => ?_)
    refine (DcscMem.load_nnz k _).bind (fun t ht => Rets.pure ?_)
    exact ht

theorem makeMat_fits (nrank : Nat) (cs : List (Option Nat)) :
    Rets (makeMat dcscClass nrank cs) (fun m => List.Forall₂ PlaceFits cs m.2) := by
  unfold makeMat
  refine Rets.skip (fun _ => Rets.skip (fun _ => Rets.skip (fun _ => Rets.skip (fun _ => Rets.skip (fun _ => Rets.skip (fun _ => ?_))))))
  refine (rets_mapM newTile_fits cs).bind (fun ts hts => ?_)
  exact Rets.skip (fun _ => Rets.skip (fun _ => Rets.pure hts))

theorem loadMat_fits (cs : List (Option Nat)) : Rets (loadMat dcscClass cs) (fun m => List.Forall₂ PlaceFits cs m.2) := by
  unfold loadMat
  refine Rets.skip (fun _ => ?_)
  exact (rets_mapM loadTile_fits cs).bind (fun ts hts => Rets.pure hts)

theorem transposeMem_fits (nrank : Nat) (cs : List (Option Nat)) (m : Ptr × MatMem DcscMem) :
    Rets (transposeMem dcscClass nrank cs m) (fun m => List.Forall₂ PlaceFits cs m.2) := by
  unfold transposeMem
  refine Rets.skip (fun _ => ?_)
  refine (makeMat_fits nrank cs).bind (fun mt hmt => ?_)
  split
  · exact Rets.skip (fun _ => Rets.pure hmt)
  · exact Rets.pure hmt

theorem matCost_eq {m : Ptr × MatMem DcscMem} (hm : MatGood DcscMem.Good m) {cs : List (Option Nat)}
    (h : List.Forall₂ PlaceFits cs m.2) : (matBlocks DcscMem.blocks m).length = matCost cs := by
  unfold matBlocks matCost
  rw [List.length_append, own_length hm.1]
  congr 1
  have hg := hm.2
  clear hm
  generalize m.2 = ts at h hg
  induction h with
  | nil => rfl
  | @cons c t cs ts hct _ ih =>
    rw [List.flatMap_cons, List.length_append, List.map_cons, List.sum_cons, ih (fun u hu => hg u (List.mem_cons_of_mem _ hu))]
    congr 1
    have ht := hg t List.mem_cons_self
    match c, t, hct, ht with
    | none, none, _, _ => rfl
    | some k, some t, hk, ht =>
      have hl := ht.2.length
      have hk : t.2.1.nnz = k := hk
      rw [hk] at hl
      unfold placeBlocks
      rw [List.length_append, own_length ht.1, hl]
      cases k with
      | zero => rfl
      | succ k => rw [if_pos (Nat.succ_pos k)]

/-! ### Sizes of vectors -/

theorem SlotGood.length {s : Bool × Ptr × SegMem} (hs : SlotGood N s) :
    (slotBlocks s).length = 1 + 8 * ((if s.2.2.props.isSome then 1 else 0) + s.2.2.pool.length) := by
  unfold slotBlocks segBlocks
  rw [List.length_append, own_length hs.1, hs.2.length]

theorem SegMem.write_keeps (threads : Nat) (s : SegMem) :
    Rets (s.write threads) (fun r => r.pool = s.pool ∧ r.props.isSome = true) := by
  unfold SegMem.write SegMem.alloc
  cases hp : s.props with
  | some b =>
    refine Rets.bind (P := fun x => x = (s, b)) (Rets.pure rfl) ?_
    rintro _ rfl
    refine Rets.skip (fun _ => Rets.skip (fun _ => Rets.skip (fun _ => Rets.pure ⟨rfl, ?_⟩)))
    rw [hp]
    rfl
  | none =>
    refine Rets.bind (P := fun x : SegMem × Ptr × BufMem => x.1.pool = s.pool ∧ x.1.props.isSome = true) ?_ ?_
    · exact Rets.skip (fun b => Rets.pure ⟨rfl, rfl⟩)
    · rintro ⟨t, b⟩ ht
      exact Rets.skip (fun _ => Rets.skip (fun _ => Rets.skip (fun _ => Rets.pure ht)))

/-- what `setAll` does to a segment -/
def SlotSet (s t : Bool × Ptr × SegMem) : Prop :=
  t.1 = s.1 ∧ t.2.2.pool = s.2.2.pool ∧ t.2.2.props.isSome = (s.2.2.props.isSome || s.1)

theorem vecSetAll_sets (threads : Nat) (v : Ptr × VecMem) :
    Rets (vecSetAll threads v) (fun w => List.Forall₂ SlotSet v.2 w.2) := by
  unfold vecSetAll
  refine Rets.skip (fun _ => ?_)
  refine (rets_mapM (R := SlotSet) ?_ v.2).bind (fun ss hss => Rets.pure hss)
  intro s
  split
  · rename_i hs
    refine (SegMem.write_keeps threads s.2.2).bind (fun t ht => Rets.pure ⟨rfl, ht.1, ?_⟩)
    rw [hs, Bool.or_true]
    exact ht.2
  · rename_i hs
    refine Rets.pure ⟨rfl, rfl, ?_⟩
    have hs : s.1 = false := by simpa using hs
    rw [hs, Bool.or_false]

theorem newVec_new (mine : List Bool) :
    Rets (newVec mine) (fun v => List.Forall₂ (fun m s => s.1 = m ∧ s.2.2 = ⟨none, [], [], []⟩) mine v.2) := by
  unfold newVec
  refine Rets.skip (fun _ => ?_)
  refine (rets_mapM (R := fun m (s : Bool × Ptr × SegMem) => s.1 = m ∧ s.2.2 = ⟨none, [], [], []⟩) ?_ mine).bind
    (fun ss hss => Rets.pure hss)
  intro m
  unfold newSeg
  rw [bind_assoc]
  refine Rets.skip (fun p => ?_)
  rw [pure_bind]
  exact Rets.pure ⟨rfl, rfl⟩

/-- a segment of a vector after `setAll` on a new vector -/
def SlotFull (m : Bool) (s : Bool × Ptr × SegMem) : Prop := s.1 = m ∧ s.2.2.pool = [] ∧ s.2.2.props.isSome = m

theorem makeFlags_full (threads : Nat) (mine : List Bool) :
    Rets (makeFlags threads mine) (fun v => List.Forall₂ SlotFull mine v.2) := by
  unfold makeFlags
  refine (newVec_new mine).bind (fun v hv => ?_)
  refine (vecSetAll_sets threads v).mono (fun w hw => ?_)
  generalize v.2 = ss at hv hw
  generalize w.2 = ts at hw
  clear v w
  induction hv generalizing ts with
  | nil => cases hw; exact List.Forall₂.nil
  | cons h _ ih =>
    cases hw with
    | cons h' hw =>
      refine List.Forall₂.cons ⟨h'.1.trans h.1, ?_, ?_⟩ (ih _ hw)
      · rw [h'.2.1, h.2]
      · rw [h'.2.2, h.2, h.1]
        rfl

theorem makeVp_full (threads : Nat) (mine : List Bool) :
    Rets (makeVp threads mine) (fun v => List.Forall₂ SlotFull mine v.2) := by
  intro h v h' e
  unfold makeVp at e
  refine (?_ : Rets (newVec mine >>= fun v => allocate .newObj >>= fun i => touch i >>= fun _ => vecSetAll threads v >>=
    fun w => release .newObj i >>= fun _ => Pure.pure w) (fun v => List.Forall₂ SlotFull mine v.2)) h v h' e
  refine (newVec_new mine).bind (fun v hv => ?_)
  refine Rets.skip (fun _ => Rets.skip (fun _ => ?_))
  refine (vecSetAll_sets threads v).bind (fun w hw => Rets.skip (fun _ => Rets.pure ?_))
  generalize v.2 = ss at hv hw
  generalize w.2 = ts at hw
  clear v w e
  induction hv generalizing ts with
  | nil => cases hw; exact List.Forall₂.nil
  | cons h _ ih =>
    cases hw with
    | cons h' hw =>
      refine List.Forall₂.cons ⟨h'.1.trans h.1, ?_, ?_⟩ (ih _ hw)
      · rw [h'.2.1, h.2]
      · rw [h'.2.2, h.2, h.1]
        rfl

theorem vecCost_eq {v : Ptr × VecMem} (hv : VecGood N v) {mine : List Bool} (h : List.Forall₂ SlotFull mine v.2) :
    (vecBlocks v).length = vecCost mine := by
  unfold vecBlocks vecCost
  rw [List.length_append, own_length hv.1]
  congr 1
  have hg := hv.2
  clear hv
  generalize v.2 = ss at h hg
  induction h with
  | nil => rfl
  | @cons m s ms ss hms _ ih =>
    rw [List.flatMap_cons, List.length_append, List.map_cons, List.sum_cons, ih (fun u hu => hg u (List.mem_cons_of_mem _ hu)),
      (hg s List.mem_cons_self).length, hms.2.1, hms.2.2]
    congr 1
    cases m <;> rfl

theorem sets_length {v w : Ptr × VecMem} (hv : VecGood N v) (hw : VecGood N w) (h : List.Forall₂ SlotSet v.2 w.2) :
    (vecBlocks v).length ≤ (vecBlocks w).length := by
  unfold vecBlocks
  rw [List.length_append, own_length hv.1, List.length_append, own_length hw.1]
  refine Nat.add_le_add_left ?_ _
  have hg := hv.2
  have hg' := hw.2
  clear hv hw
  generalize v.2 = ss at h hg
  generalize w.2 = ts at h hg'
  induction h with
  | nil => exact Nat.le_refl _
  | @cons s t ss ts hst _ ih =>
    rw [List.flatMap_cons, List.length_append, List.flatMap_cons, List.length_append]
    refine Nat.add_le_add ?_ (ih (fun u hu => hg u (List.mem_cons_of_mem _ hu)) (fun u hu => hg' u (List.mem_cons_of_mem _ hu)))
    rw [(hg s List.mem_cons_self).length, (hg' t List.mem_cons_self).length, hst.2.1, hst.2.2]
    cases s.2.2.props.isSome <;> cases s.1 <;> simp
    omega

/-! ### Steps on vectors -/

theorem makeFlags_runs {threads : Nat} (hN : N ≤ threads * 16) (mine : List Bool) (L : List (Nat × Alloc)) :
    Runs (makeFlags threads mine) L (fun v X => VecGood N v ∧ (vecBlocks v).length = vecCost mine ∧ X.Perm (vecBlocks v ++ L)) := by
  refine Runs.mono (Runs.with (P := fun v => List.Forall₂ SlotFull mine v.2)
    (Q := fun v X => VecGood N v ∧ X.Perm (vecBlocks v ++ L)) ?_ (makeFlags_full threads mine)) ?_
  · unfold makeFlags
    refine (newVec_runs N mine L).bind ?_
    rintro v X ⟨hv, hX⟩
    exact (vecSetAll_runs hN hv L).perm hX
  · rintro v X ⟨hf, hv, hX⟩
    exact ⟨hv, vecCost_eq hv hf, hX⟩

theorem makeVp_runs {threads : Nat} (hN : N ≤ threads * 16) (mine : List Bool) (L : List (Nat × Alloc)) :
    Runs (makeVp threads mine) L (fun v X => VecGood N v ∧ (vecBlocks v).length = vecCost mine ∧ X.Perm (vecBlocks v ++ L)) := by
  refine Runs.mono (Runs.with (P := fun v => List.Forall₂ SlotFull mine v.2)
    (Q := fun v X => VecGood N v ∧ X.Perm (vecBlocks v ++ L)) ?_ (makeVp_full threads mine)) ?_
  · unfold makeVp
    refine (newVec_runs N mine L).bind ?_
    rintro v X ⟨hv, hX⟩
    refine (runs_allocate _ _).bind ?_
    rintro i _ ⟨hi, rfl⟩
    refine (ptr_touch (k := .newObj) hi (fun x hx => List.mem_append_left _ hx)).bind ?_
    rintro _ _ rfl
    have hp : (own .newObj i ++ X).Perm (vecBlocks v ++ (own .newObj i ++ L)) := by
      refine (hX.append_left _).trans ?_
      perm_parts
    refine ((vecSetAll_runs hN hv _).perm hp).bind ?_
    rintro w Y ⟨hw, hY⟩
    refine (runs_release (L' := vecBlocks w ++ L) hi (hY.trans (by perm_parts))).bind ?_
    rintro _ _ rfl
    exact Runs.pure ⟨hw, List.Perm.refl _⟩
  · rintro v X ⟨hf, hv, hX⟩
    exact ⟨hv, vecCost_eq hv hf, hX⟩

theorem vecSetAll_grows {threads : Nat} (hN : N ≤ threads * 16) {v : Ptr × VecMem} (hv : VecGood N v) (L : List (Nat × Alloc)) :
    Runs (vecSetAll threads v) (vecBlocks v ++ L) (fun w X => VecGood N w ∧ (vecBlocks v).length ≤ (vecBlocks w).length ∧
      X.Perm (vecBlocks w ++ L)) := by
  refine ((vecSetAll_runs hN hv L).with (vecSetAll_sets threads v)).mono ?_
  rintro w X ⟨hs, hw, hX⟩
  exact ⟨hw, sets_length hv hw hs, hX⟩

theorem vecAct_runs {threads : Nat} (hN : N ≤ threads * 16) (j : Nat) (a : SegAct) (ha : a.Fits N) {v : Ptr × VecMem}
    (hv : VecGood N v) (L : List (Nat × Alloc)) :
    Runs (vecAct threads j a v) (vecBlocks v ++ L) (fun w X => VecGood N w ∧ (vecBlocks v).length ≤ (vecBlocks w).length ∧
      X.Perm (vecBlocks w ++ L)) := by
  unfold vecAct
  cases hj : v.2[j]? with
  | none => exact Runs.pure ⟨hv, Nat.le_refl _, List.Perm.refl _⟩
  | some s =>
    dsimp only
    have hs := hv.2 s (List.mem_of_getElem? hj)
    have hq := flatMap_at slotBlocks v.2 j s hj
    have e : (vecBlocks v).Perm (own .newObj v.1 ++ (slotBlocks s ++ (v.2.eraseIdx j).flatMap slotBlocks)) := hq.append_left _
    have hall : (vecBlocks v ++ L).Perm (s.2.2.blocks ++ (own .newObj s.2.1 ++ (own .newObj v.1 ++
        ((v.2.eraseIdx j).flatMap slotBlocks ++ L)))) := by
      refine (e.append_right L).trans ?_
      unfold slotBlocks segBlocks
      perm_parts
    refine (ptr_touch (k := .newObj) hv.1 (fun x hx => hall.mem_iff.2 (by simp only [List.mem_append]; tauto))).bind ?_
    rintro _ _ rfl
    refine (ptr_touch (k := .newObj) hs.1 (fun x hx => hall.mem_iff.2 (by simp only [List.mem_append]; tauto))).bind ?_
    rintro _ _ rfl
    refine ((SegAct.runs hN a ha hs.2 _).perm hall).bind ?_
    rintro t X ⟨ht, hX, hpool, hsome⟩
    have hw : VecGood N (v.1, v.2.set j (s.1, s.2.1, t)) := ⟨hv.1, set_good hv.2 ⟨hs.1, ht⟩⟩
    have e' : (vecBlocks (v.1, v.2.set j (s.1, s.2.1, t))).Perm
        (own .newObj v.1 ++ (slotBlocks (s.1, s.2.1, t) ++ (v.2.eraseIdx j).flatMap slotBlocks)) :=
      (flatMap_set slotBlocks v.2 j s _ hj).append_left _
    refine Runs.pure ⟨hw, ?_, hX.trans ?_⟩
    · have h1 : (slotBlocks s).length ≤ (slotBlocks (s.1, s.2.1, t)).length := by
        rw [hs.length, SlotGood.length (N := N) (s := (s.1, s.2.1, t)) ⟨hs.1, ht⟩]
        dsimp only
        rw [hpool, hsome]
        have := Nat.le_max_left s.2.2.pool.length a.load
        cases s.2.2.props.isSome <;> cases a.allocates <;> simp <;> omega
      rw [e.length_eq, e'.length_eq]
      simp only [List.length_append]
      omega
    · refine List.Perm.symm ((e'.append_right L).trans ?_)
      conv => lhs; unfold slotBlocks segBlocks
      conv => rhs; unfold slotBlocks segBlocks
      dsimp only
      perm_parts

/-! ### Graphs -/

/-- blocks of what a pointer points to if it is not null -/
def optBlocks {α : Type} (f : α → List (Nat × Alloc)) (o : Option α) : List (Nat × Alloc) := o.elim [] f

/-- blocks of a graph -/
def graphBlocks (g : GraphMem) : List (Nat × Alloc) :=
  optBlocks (matBlocks DcscMem.blocks) g.A ++ (optBlocks (matBlocks DcscMem.blocks) g.AT ++ (optBlocks vecBlocks g.vp ++
    optBlocks vecBlocks g.active))

/-- the graph has been filled -/
structure GraphGood (N : Nat) (g : GraphMem) (A AT : Ptr × MatMem DcscMem) (vp act : Ptr × VecMem) (o : Bool) : Prop where
  eq : g = ⟨some A, some AT, some vp, some act, o⟩
  A : MatGood DcscMem.Good A
  AT : MatGood DcscMem.Good AT
  vp : VecGood N vp
  act : VecGood N act

def Filled (N : Nat) (g : GraphMem) (o : Bool := true) : Prop := ∃ A AT vp act, GraphGood N g A AT vp act o

theorem graphBlocks_some (A AT : Ptr × MatMem DcscMem) (vp act : Ptr × VecMem) (o : Bool) :
    graphBlocks ⟨some A, some AT, some vp, some act, o⟩ =
      matBlocks DcscMem.blocks A ++ (matBlocks DcscMem.blocks AT ++ (vecBlocks vp ++ vecBlocks act)) := rfl

theorem readEdgelist_runs {threads : Nat} (hN : N ≤ threads * 16) (nrank : Nat) (cs ct : List (Option Nat)) (mine : List Bool)
    (g : GraphMem) (L : List (Nat × Alloc)) :
    Runs (g.readEdgelist threads nrank cs ct mine) L (fun g' X => Filled N g' ∧
      (graphBlocks g').length = matCost cs + matCost ct + vecCost mine + vecCost mine ∧ X.Perm (graphBlocks g' ++ L)) := by
  unfold GraphMem.readEdgelist
  refine ((makeMat_runs dcsc_contract nrank cs L).with (makeMat_fits nrank cs)).bind ?_
  rintro A X ⟨fA, hA, hX⟩
  refine (((transposeMem_runs dcsc_contract nrank ct A L hA).with (transposeMem_fits nrank ct A)).perm hX).bind ?_
  rintro AT Y ⟨fAT, hAT, hY⟩
  refine (ptr_touch (k := .newObj) hA.1 (fun x hx => hY.mem_iff.2 ?_)).bind ?_
  · unfold matBlocks
    simp only [List.mem_append]
    tauto
  rintro _ Y rfl
  refine (makeVp_runs hN mine _).bind ?_
  rintro vp Z ⟨hvp, cvp, hZ⟩
  refine (makeFlags_runs hN mine _).bind ?_
  rintro act W ⟨hact, cact, hW⟩
  refine Runs.pure ⟨⟨A, AT, vp, act, rfl, hA, hAT, hvp, hact⟩, ?_, ?_⟩
  · rw [graphBlocks_some]
    simp only [List.length_append, matCost_eq hA fA, matCost_eq hAT fAT, cvp, cact]
    omega
  · rw [graphBlocks_some]
    refine hW.trans ((hZ.append_left _).trans (((hY.append_left _).append_left _).trans ?_))
    perm_parts

theorem readBin_runs {threads : Nat} (hN : N ≤ threads * 16) (cs ct : List (Option Nat)) (mine : List Bool)
    (g : GraphMem) (L : List (Nat × Alloc)) :
    Runs (g.readBin threads cs ct mine) L (fun g' X => Filled N g' ∧
      (graphBlocks g').length = matCost cs + matCost ct + vecCost mine + vecCost mine ∧ X.Perm (graphBlocks g' ++ L)) := by
  unfold GraphMem.readBin
  refine ((loadMat_runs dcsc_contract cs (fun _ _ => trivial) L).with (loadMat_fits cs)).bind ?_
  rintro A X ⟨fA, hA, hX⟩
  refine ((loadMat_runs dcsc_contract ct (fun _ _ => trivial) X).with (loadMat_fits ct)).bind ?_
  rintro AT Y ⟨fAT, hAT, hY⟩
  have hY : Y.Perm (matBlocks DcscMem.blocks AT ++ (matBlocks DcscMem.blocks A ++ L)) := hY.trans (hX.append_left _)
  refine (ptr_touch (k := .newObj) hA.1 (fun x hx => hY.mem_iff.2 ?_)).bind ?_
  · unfold matBlocks
    simp only [List.mem_append]
    tauto
  rintro _ Y rfl
  refine (ptr_touch (k := .newObj) hAT.1 (fun x hx => hY.mem_iff.2 ?_)).bind ?_
  · unfold matBlocks
    simp only [List.mem_append]
    tauto
  rintro _ Y rfl
  refine (makeVp_runs hN mine _).bind ?_
  rintro vp Z ⟨hvp, cvp, hZ⟩
  refine (makeFlags_runs hN mine _).bind ?_
  rintro act W ⟨hact, cact, hW⟩
  refine Runs.pure ⟨⟨A, AT, vp, act, rfl, hA, hAT, hvp, hact⟩, ?_, ?_⟩
  · rw [graphBlocks_some]
    simp only [List.length_append, matCost_eq hA fA, matCost_eq hAT fAT, cvp, cact]
    omega
  · rw [graphBlocks_some]
    refine hW.trans ((hZ.append_left _).trans (((hY.append_left _).append_left _).trans ?_))
    perm_parts

/-- filling a graph: what it had stays where it was -/
theorem fills_runs {threads : Nat} (hN : N ≤ threads * 16) (nrank : Nat) (op : GraphOp) (hop : op.fills = true)
    (s : GraphMem × List TempMem) (L : List (Nat × Alloc)) :
    Runs (op.exec threads nrank s) L (fun r X => Filled N r.1 ∧ r.2 = s.2 ∧ (graphBlocks r.1).length = op.cost ∧
      ∃ M : List (Nat × Alloc), X.Perm (graphBlocks r.1 ++ (M ++ L)) ∧ M.length = op.forgets) := by
  cases op with
  | read cs ct mine =>
    refine (readEdgelist_runs hN nrank cs ct mine s.1 L).bind ?_
    rintro g X ⟨hg, hc, hX⟩
    exact Runs.pure ⟨hg, rfl, hc, [], hX, rfl⟩
  | restore cs ct mine =>
    refine (readBin_runs hN cs ct mine s.1 L).bind ?_
    rintro g X ⟨hg, hc, hX⟩
    exact Runs.pure ⟨hg, rfl, hc, [], hX, rfl⟩
  | readFile k cs ct mine =>
    show Runs ((allocate .mm >>= fun e => s.1.readEdgelist threads nrank cs ct mine >>= fun g =>
      if 0 < k then release .mm e >>= fun _ => pure g else pure g) >>= fun g => pure (g, s.2)) L _
    rw [bind_assoc]
    refine (runs_allocate _ _).bind ?_
    rintro e _ ⟨he, rfl⟩
    rw [bind_assoc]
    refine (readEdgelist_runs hN nrank cs ct mine s.1 _).bind ?_
    rintro g X ⟨hg, hc, hX⟩
    cases k with
    | zero =>
      exact Runs.pure ⟨hg, rfl, hc, own .mm e, hX, own_length he⟩
    | succ k =>
      rw [if_pos (Nat.succ_pos k), bind_assoc]
      refine (runs_release (L' := graphBlocks g ++ L) he (hX.trans (by perm_parts))).bind ?_
      rintro _ _ rfl
      exact Runs.pure ⟨hg, rfl, hc, [], List.Perm.refl _, rfl⟩
  | _ => cases hop

theorem useMat_runs {m : Ptr × MatMem DcscMem} (hm : MatGood DcscMem.Good m) {L : List (Nat × Alloc)}
    (hL : ∃ R, L.Perm (matBlocks DcscMem.blocks m ++ R)) : Runs (useMat m) L (fun _ X => X.Perm L) := by
  obtain ⟨R, hR⟩ := hL
  unfold useMat
  refine (ptr_touch (k := .newObj) hm.1 (fun x hx => hR.mem_iff.2 ?_)).bind ?_
  · unfold matBlocks
    simp only [List.mem_append]
    tauto
  rintro _ _ rfl
  refine (runs_mapM_each _ ?_).bind ?_
  · intro t ht
    obtain ⟨R', hR'⟩ := flatMap_split (placeBlocks DcscMem.blocks) m.2 t ht
    refine useTile_runs dcsc_contract t _ (R' ++ (own .newObj m.1 ++ R)) (hm.2 t ht) (hR.trans ?_)
    unfold matBlocks
    refine ((hR'.append_left _).append_right R).trans ?_
    perm_parts
  · intro _ X hX
    exact Runs.pure hX

/-- a state of a program: the graph is filled, the vectors are fine -/
def StGood (N : Nat) (s : GraphMem × TempMem) : Prop := Filled N s.1 ∧ VecGood N s.2.1 ∧ VecGood N s.2.2

def tempBlocks (t : TempMem) : List (Nat × Alloc) := vecBlocks t.1 ++ vecBlocks t.2

def TempGood (N : Nat) (t : TempMem) : Prop := VecGood N t.1 ∧ VecGood N t.2

/-- reducing changes a segment as `setAll` does -/
theorem slot_reduce {threads : Nat} (hN : N ≤ threads * 16) (s : Bool × Ptr × SegMem) (L : List (Nat × Alloc)) (hs : SlotGood N s) :
    Runs (if s.1 then do
      let t ← s.2.2.write threads
      let reduced ← allocate .newArr
      let first ← allocate .newArr
      touch first
      touch reduced
      release .newArr reduced
      release .newArr first
      pure (s.1, s.2.1, t)
    else pure s) (slotBlocks s ++ L) (fun t X => SlotGood N t ∧ X.Perm (slotBlocks t ++ L)) := by
  split
  · unfold slotBlocks segBlocks
    refine ((SegMem.write_runs hN hs.2.good (own .newObj s.2.1 ++ L)).perm (by perm_parts)).bind ?_
    rintro t X ⟨ht, hX, e1, e2, e3, e4⟩
    refine (runs_allocate .newArr _).bind ?_
    rintro p1 _ ⟨h1, rfl⟩
    refine (runs_allocate .newArr _).bind ?_
    rintro p2 _ ⟨h2, rfl⟩
    refine (ptr_touch (k := .newArr) h2 (by simp +contextual)).bind ?_
    rintro _ _ rfl
    refine (ptr_touch (k := .newArr) h1 (by simp +contextual)).bind ?_
    rintro _ _ rfl
    refine (runs_release (L' := own .newArr p2 ++ X) h1 (by perm_parts)).bind ?_
    rintro _ _ rfl
    refine (runs_release h2 (List.Perm.refl _)).bind ?_
    rintro _ _ rfl
    refine Runs.pure ⟨⟨hs.1, hs.2.keeps ht e1 e2⟩, hX.trans ?_⟩
    dsimp only
    perm_parts
  · exact Runs.pure ⟨hs, List.Perm.refl _⟩

theorem vecReduce_sets (threads : Nat) (v : Ptr × VecMem) :
    Rets (vecReduce threads v) (fun w => List.Forall₂ SlotSet v.2 w.2) := by
  unfold vecReduce
  refine Rets.skip (fun _ => ?_)
  refine (rets_mapM (R := SlotSet) ?_ v.2).bind (fun ss hss => ?_)
  · intro s
    split
    · rename_i hs
      refine (SegMem.write_keeps threads s.2.2).bind (fun t ht => ?_)
      iterate 6 refine Rets.skip (fun _ => ?_)
      refine Rets.pure ⟨rfl, ht.1, ?_⟩
      rw [hs, Bool.or_true]
      exact ht.2
    · rename_i hs
      refine Rets.pure ⟨rfl, rfl, ?_⟩
      have hs : s.1 = false := by simpa using hs
      rw [hs, Bool.or_false]
  · iterate 3 refine Rets.skip (fun _ => ?_)
    exact Rets.pure hss

theorem vecReduce_runs {threads : Nat} (hN : N ≤ threads * 16) {v : Ptr × VecMem} (hv : VecGood N v) (L : List (Nat × Alloc)) :
    Runs (vecReduce threads v) (vecBlocks v ++ L) (fun w X => VecGood N w ∧ (vecBlocks v).length ≤ (vecBlocks w).length ∧
      X.Perm (vecBlocks w ++ L)) := by
  refine Runs.mono (Runs.with (Q := fun w X => VecGood N w ∧ X.Perm (vecBlocks w ++ L)) ?_ (vecReduce_sets threads v)) ?_
  · unfold vecReduce vecBlocks
    refine (ptr_touch (k := .newObj) hv.1 (fun x hx => by simp only [List.mem_append]; tauto)).bind ?_
    rintro _ _ rfl
    have hp : (own .newObj v.1 ++ v.2.flatMap slotBlocks ++ L).Perm (v.2.flatMap slotBlocks ++ (own .newObj v.1 ++ L)) := by
      perm_parts
    refine ((runs_mapM_upd (blk := slotBlocks) (blk' := slotBlocks) (G := SlotGood N) (G' := SlotGood N)
      (fun s L hs => slot_reduce hN s L hs) _ hv.2 _).perm hp).bind ?_
    rintro ss X ⟨hss, hX⟩
    refine (runs_allocate .newArr _).bind ?_
    rintro p _ ⟨hp, rfl⟩
    refine (ptr_touch (k := .newArr) hp (by simp +contextual)).bind ?_
    rintro _ _ rfl
    refine (runs_release hp (List.Perm.refl _)).bind ?_
    rintro _ _ rfl
    refine Runs.pure ⟨⟨hv.1, hss⟩, hX.trans ?_⟩
    dsimp only
    perm_parts
  · rintro w X ⟨hs, hw, hX⟩
    exact ⟨hw, sets_length hv hw hs, hX⟩

theorem reduce_runs {threads : Nat} {o : Bool} (hN : N ≤ threads * 16) {g : GraphMem} (hg : Filled N g o) (L : List (Nat × Alloc)) :
    Runs (g.reduce threads) (graphBlocks g ++ L) (fun r X => Filled N r o ∧
      (graphBlocks g).length ≤ (graphBlocks r).length ∧ X.Perm (graphBlocks r ++ L)) := by
  obtain ⟨A, AT, vp, act, rfl, hA, hAT, hvp, hact⟩ := hg
  show Runs (pure vp >>= fun v => vecReduce threads v >>= fun v => pure _) _ _
  rw [pure_bind]
  refine ((vecReduce_runs hN hvp (matBlocks DcscMem.blocks A ++ (matBlocks DcscMem.blocks AT ++ (vecBlocks act ++ L)))).perm
    (by rw [graphBlocks_some]; perm_parts)).bind ?_
  rintro w X ⟨hw, hl, hX⟩
  refine Runs.pure ⟨⟨A, AT, w, act, rfl, hA, hAT, hw, hact⟩, ?_, hX.trans ?_⟩
  · rw [graphBlocks_some, graphBlocks_some]
    simp only [List.length_append]
    omega
  · rw [graphBlocks_some]
    perm_parts

theorem runStep_runs {threads : Nat} {o : Bool} (hN : N ≤ threads * 16) (st : RunStep) (hst : st.Fits N) (s : GraphMem × TempMem)
    (hg : Filled N s.1 o) (ht : TempGood N s.2) (L : List (Nat × Alloc)) :
    Runs (st.run threads s) (graphBlocks s.1 ++ (tempBlocks s.2 ++ L)) (fun r X => Filled N r.1 o ∧ TempGood N r.2 ∧
      (graphBlocks s.1).length ≤ (graphBlocks r.1).length ∧ X.Perm (graphBlocks r.1 ++ (tempBlocks r.2 ++ L))) := by
  obtain ⟨g, x, y⟩ := s
  obtain ⟨A, AT, vp, act, rfl, hA, hAT, hvp, hact⟩ := hg
  obtain ⟨hx, hy⟩ := ht
  dsimp only at hx hy
  cases st with
  | act w j a =>
    cases w with
    | x =>
      refine ((vecAct_runs hN j a hst hx (graphBlocks ⟨some A, some AT, some vp, some act, o⟩ ++ (vecBlocks y ++ L))).perm
        (by unfold tempBlocks; dsimp only; perm_parts)).bind ?_
      rintro w X ⟨hw, -, hX⟩
      refine Runs.pure ⟨⟨A, AT, vp, act, rfl, hA, hAT, hvp, hact⟩, ⟨hw, hy⟩, Nat.le_refl _, hX.trans ?_⟩
      unfold tempBlocks; dsimp only; perm_parts
    | y =>
      refine ((vecAct_runs hN j a hst hy (graphBlocks ⟨some A, some AT, some vp, some act, o⟩ ++ (vecBlocks x ++ L))).perm
        (by unfold tempBlocks; dsimp only; perm_parts)).bind ?_
      rintro w X ⟨hw, -, hX⟩
      refine Runs.pure ⟨⟨A, AT, vp, act, rfl, hA, hAT, hvp, hact⟩, ⟨hx, hw⟩, Nat.le_refl _, hX.trans ?_⟩
      unfold tempBlocks; dsimp only; perm_parts
    | vp =>
      show Runs (pure vp >>= fun v => vecAct threads j a v >>= _) _ _
      rw [pure_bind]
      refine ((vecAct_runs hN j a hst hvp (matBlocks DcscMem.blocks A ++ (matBlocks DcscMem.blocks AT ++ (vecBlocks act ++
        (tempBlocks (x, y) ++ L))))).perm (by rw [graphBlocks_some]; perm_parts)).bind ?_
      rintro w X ⟨hw, hl, hX⟩
      refine Runs.pure ⟨⟨A, AT, w, act, rfl, hA, hAT, hw, hact⟩, ⟨hx, hy⟩, ?_, hX.trans ?_⟩
      · rw [graphBlocks_some, graphBlocks_some]
        simp only [List.length_append]
        omega
      · rw [graphBlocks_some]
        perm_parts
    | active =>
      show Runs (pure act >>= fun v => vecAct threads j a v >>= _) _ _
      rw [pure_bind]
      refine ((vecAct_runs hN j a hst hact (matBlocks DcscMem.blocks A ++ (matBlocks DcscMem.blocks AT ++ (vecBlocks vp ++
        (tempBlocks (x, y) ++ L))))).perm (by rw [graphBlocks_some]; perm_parts)).bind ?_
      rintro w X ⟨hw, hl, hX⟩
      refine Runs.pure ⟨⟨A, AT, vp, w, rfl, hA, hAT, hvp, hw⟩, ⟨hx, hy⟩, ?_, hX.trans ?_⟩
      · rw [graphBlocks_some, graphBlocks_some]
        simp only [List.length_append]
        omega
      · rw [graphBlocks_some]
        perm_parts
  | reduce =>
    refine (reduce_runs hN ⟨A, AT, vp, act, rfl, hA, hAT, hvp, hact⟩ _).bind ?_
    rintro g X ⟨hg, hl, hX⟩
    exact Runs.pure ⟨hg, ⟨hx, hy⟩, hl, hX⟩
  | product tr =>
    cases tr with
    | false =>
      show Runs (pure A >>= fun m => useMat m >>= fun _ => pure _) _ _
      rw [pure_bind]
      refine (useMat_runs hA ⟨matBlocks DcscMem.blocks AT ++ (vecBlocks vp ++ (vecBlocks act ++ (tempBlocks (x, y) ++ L))), by
        rw [graphBlocks_some]; perm_parts⟩).bind ?_
      intro _ X hX
      exact Runs.pure ⟨⟨A, AT, vp, act, rfl, hA, hAT, hvp, hact⟩, ⟨hx, hy⟩, Nat.le_refl _, hX⟩
    | true =>
      show Runs (pure AT >>= fun m => useMat m >>= fun _ => pure _) _ _
      rw [pure_bind]
      refine (useMat_runs hAT ⟨matBlocks DcscMem.blocks A ++ (vecBlocks vp ++ (vecBlocks act ++ (tempBlocks (x, y) ++ L))), by
        rw [graphBlocks_some]; perm_parts⟩).bind ?_
      intro _ X hX
      exact Runs.pure ⟨⟨A, AT, vp, act, rfl, hA, hAT, hvp, hact⟩, ⟨hx, hy⟩, Nat.le_refl _, hX⟩

theorem runSteps_runs {threads : Nat} {o : Bool} (hN : N ≤ threads * 16) (sts : List RunStep) (hsts : ∀ st ∈ sts, st.Fits N) :
    ∀ (s : GraphMem × TempMem) (_ : Filled N s.1 o) (_ : TempGood N s.2) (L : List (Nat × Alloc)),
    Runs (runSteps threads sts s) (graphBlocks s.1 ++ (tempBlocks s.2 ++ L)) (fun r X => Filled N r.1 o ∧ TempGood N r.2 ∧
      (graphBlocks s.1).length ≤ (graphBlocks r.1).length ∧ X.Perm (graphBlocks r.1 ++ (tempBlocks r.2 ++ L))) := by
  induction sts with
  | nil => exact fun s hg ht L => Runs.pure ⟨hg, ht, Nat.le_refl _, List.Perm.refl _⟩
  | cons st sts ih =>
    intro s hg ht L
    refine (runStep_runs hN st (hsts _ List.mem_cons_self) s hg ht L).bind ?_
    rintro r X ⟨hr, htr, hl, hX⟩
    refine ((ih (fun o ho => hsts o (List.mem_cons_of_mem _ ho)) r hr htr L).perm hX).mono ?_
    rintro q Y ⟨hq, htq, hl', hY⟩
    exact ⟨hq, htq, Nat.le_trans hl hl', hY⟩

theorem setAllActive_runs {threads : Nat} {o : Bool} (hN : N ≤ threads * 16) {g : GraphMem} (hg : Filled N g o) (L : List (Nat × Alloc)) :
    Runs (g.setAllActive threads) (graphBlocks g ++ L) (fun r X => Filled N r o ∧
      (graphBlocks g).length ≤ (graphBlocks r).length ∧ X.Perm (graphBlocks r ++ L)) := by
  obtain ⟨A, AT, vp, act, rfl, hA, hAT, hvp, hact⟩ := hg
  show Runs (pure act >>= fun v => vecSetAll threads v >>= fun v => pure _) _ _
  rw [pure_bind]
  refine ((vecSetAll_grows hN hact (matBlocks DcscMem.blocks A ++ (matBlocks DcscMem.blocks AT ++ (vecBlocks vp ++ L)))).perm
    (by rw [graphBlocks_some]; perm_parts)).bind ?_
  rintro w X ⟨hw, hl, hX⟩
  refine Runs.pure ⟨⟨A, AT, vp, w, rfl, hA, hAT, hvp, hw⟩, ?_, hX.trans ?_⟩
  · rw [graphBlocks_some, graphBlocks_some]
    simp only [List.length_append]
    omega
  · rw [graphBlocks_some]
    perm_parts

theorem setAllVp_runs {threads : Nat} {o : Bool} (hN : N ≤ threads * 16) {g : GraphMem} (hg : Filled N g o) (L : List (Nat × Alloc)) :
    Runs (g.setAllVp threads) (graphBlocks g ++ L) (fun r X => Filled N r o ∧
      (graphBlocks g).length ≤ (graphBlocks r).length ∧ X.Perm (graphBlocks r ++ L)) := by
  obtain ⟨A, AT, vp, act, rfl, hA, hAT, hvp, hact⟩ := hg
  show Runs (pure vp >>= fun v => vecSetAll threads v >>= fun v => pure _) _ _
  rw [pure_bind]
  refine ((vecSetAll_grows hN hvp (matBlocks DcscMem.blocks A ++ (matBlocks DcscMem.blocks AT ++ (vecBlocks act ++ L)))).perm
    (by rw [graphBlocks_some]; perm_parts)).bind ?_
  rintro w X ⟨hw, hl, hX⟩
  refine Runs.pure ⟨⟨A, AT, w, act, rfl, hA, hAT, hw, hact⟩, ?_, hX.trans ?_⟩
  · rw [graphBlocks_some, graphBlocks_some]
    simp only [List.length_append]
    omega
  · rw [graphBlocks_some]
    perm_parts

theorem setIf_runs {threads : Nat} {o : Bool} (hN : N ≤ threads * 16) (all : Bool) {g : GraphMem} (hg : Filled N g o) (L : List (Nat × Alloc)) :
    Runs (if all then g.setAllActive threads else pure g) (graphBlocks g ++ L) (fun r X => Filled N r o ∧
      (graphBlocks g).length ≤ (graphBlocks r).length ∧ X.Perm (graphBlocks r ++ L)) := by
  cases all with
  | false => exact Runs.pure ⟨hg, Nat.le_refl _, List.Perm.refl _⟩
  | true => exact setAllActive_runs hN hg L

theorem runWith_runs {threads : Nat} {o : Bool} (hN : N ≤ threads * 16) (all : Bool) (sts : List RunStep) (hsts : ∀ st ∈ sts, st.Fits N)
    {t : TempMem} (ht : TempGood N t) {g : GraphMem} (hg : Filled N g o) (L : List (Nat × Alloc)) :
    Runs (g.runWith threads all (runSteps threads sts) t) (graphBlocks g ++ (tempBlocks t ++ L)) (fun r X => Filled N r.1 o ∧
      TempGood N r.2 ∧ (graphBlocks g).length ≤ (graphBlocks r.1).length ∧ X.Perm (graphBlocks r.1 ++ (tempBlocks r.2 ++ L))) := by
  unfold GraphMem.runWith
  refine (setIf_runs hN all hg _).bind ?_
  rintro g1 X ⟨hg1, l1, hX⟩
  refine ((runSteps_runs hN sts hsts (g1, t) hg1 ht L).perm hX).bind ?_
  rintro r Y ⟨hr, htr, l2, hY⟩
  refine ((setIf_runs hN all hr _).perm hY).bind ?_
  rintro g2 Z ⟨hg2, l3, hZ⟩
  exact Runs.pure ⟨hg2, htr, Nat.le_trans l1 (Nat.le_trans l2 l3), hZ⟩

theorem newTemps_runs {threads : Nat} (hN : N ≤ threads * 16) (mine : List Bool) (L : List (Nat × Alloc)) :
    Runs (newTemps threads mine) L (fun t X => TempGood N t ∧ X.Perm (tempBlocks t ++ L)) := by
  unfold newTemps
  refine (makeFlags_runs hN mine L).bind ?_
  rintro x X ⟨hx, -, hX⟩
  refine (makeFlags_runs hN mine X).bind ?_
  rintro y Y ⟨hy, -, hY⟩
  refine Runs.pure ⟨⟨hx, hy⟩, hY.trans ((hX.append_left _).trans ?_)⟩
  unfold tempBlocks
  dsimp only
  perm_parts

theorem deleteTemps_runs {t : TempMem} (ht : TempGood N t) (L : List (Nat × Alloc)) :
    Runs (deleteTemps t) (tempBlocks t ++ L) (fun _ X => X.Perm L) := by
  unfold deleteTemps tempBlocks
  rw [List.append_assoc]
  refine (deleteVec_runs ht.1 _).bind ?_
  intro _ X hX
  exact (deleteVec_runs ht.2 L).perm hX

/-- what `ingestEdgelist` does to a segment -/
def SlotHit (hit : Nat → Bool) (s : (Bool × Ptr × SegMem) × Nat) (t : Bool × Ptr × SegMem) : Prop :=
  t.1 = s.1.1 ∧ (s.1.1 = true → hit s.2 = true → t.2.2.props.isSome = true)

theorem vecIngest_hits (threads nrank k : Nat) (hit : Nat → Bool) (v : Ptr × VecMem) :
    Rets (vecIngest threads nrank k hit v) (fun w => List.Forall₂ (SlotHit hit) v.2.zipIdx w.2) := by
  have hm : Rets (v.2.zipIdx.mapM (fun s => do
      if s.1.1 && hit s.2 then do
        let t ← s.1.2.2.write threads
        pure (s.1.1, s.1.2.1, t)
      else pure s.1)) (fun ss => List.Forall₂ (SlotHit hit) v.2.zipIdx ss) := by
    refine rets_mapM (R := SlotHit hit) ?_ _
    intro s
    split
    · exact (SegMem.write_keeps threads s.1.2.2).bind (fun t ht => Rets.pure ⟨rfl, fun _ _ => ht.2⟩)
    · rename_i hs
      refine Rets.pure ⟨rfl, fun h1 h2 => ?_⟩
      rw [h1, h2] at hs
      exact absurd rfl hs
  unfold vecIngest
  dsimp only
  iterate 23 refine Rets.skip (fun _ => ?_)
  split
  · iterate 2 refine Rets.skip (fun _ => ?_)
    refine hm.bind (fun ss hss => ?_)
    iterate 3 refine Rets.skip (fun _ => ?_)
    exact Rets.pure hss
  · refine hm.bind (fun ss hss => ?_)
    iterate 3 refine Rets.skip (fun _ => ?_)
    exact Rets.pure hss

theorem vecSave_runs {v : Ptr × VecMem} (hv : VecGood N v) (cap : Nat → Bool)
    (hc : ∀ s ∈ v.2.zipIdx, s.1.1 = true → cap s.2 = true → s.1.2.2.props.isSome = true) {L : List (Nat × Alloc)}
    (hL : ∀ x ∈ vecBlocks v, x ∈ L) : Runs (vecSave cap v) L (fun _ X => X = L) := by
  unfold vecSave
  have h1 : ∀ x ∈ own .newObj v.1, x ∈ L := fun x hx => hL x (List.mem_append_left _ hx)
  refine (ptr_touch (k := .newObj) hv.1 h1).bind ?_
  rintro _ L rfl
  refine (runs_mapM_same _ ?_).bind ?_
  · intro s hs
    have hm : s.1 ∈ v.2 := List.fst_mem_of_mem_zipIdx hs
    have hin : ∀ x ∈ s.1.2.2.blocks, x ∈ L := fun x hx => hL x (by
      unfold vecBlocks slotBlocks segBlocks
      exact List.mem_append_right _ (List.mem_flatMap.2 ⟨s.1, hm, List.mem_append_right _ hx⟩))
    split
    · rename_i hmine
      refine (SegMem.read_runs (hv.2 _ hm).2.good hin).bind ?_
      rintro _ L rfl
      split
      · rename_i hcap
        have hsome := hc s hs hmine hcap
        obtain ⟨b, hb⟩ := Option.isSome_iff_exists.1 hsome
        have hbg := (hv.2 _ hm).2.good.props b hb
        have hbin : ∀ x ∈ bufBlocks b, x ∈ L := fun x hx => hin x (by
          unfold SegMem.blocks
          rw [hb]
          exact List.mem_append_left _ hx)
        rw [hb]
        show Runs (pure b >>= fun b => _) _ _
        rw [pure_bind]
        refine (ptr_touch (k := .newObj) hbg.1 (fun x hx => hbin x (List.mem_append_left _ hx))).bind ?_
        rintro _ L rfl
        refine (ptr_touch (k := .newArr) (hbg.2.ptr _ (by simp [BufMem.ptrs])) (fun x hx => hbin x (List.mem_append_right _
          (BufMem.own_mem (by simp [BufMem.ptrs]) x hx)))).bind ?_
        rintro _ L rfl
        exact ptr_touch (k := .newArr) (hbg.2.ptr _ (by simp [BufMem.ptrs])) (fun x hx => hbin x (List.mem_append_right _
          (BufMem.own_mem (by simp [BufMem.ptrs]) x hx)))
      · exact Runs.pure rfl
    · exact Runs.pure rfl
  rintro _ L rfl
  exact Runs.pure rfl

/-- after `ingestEdgelist` every own segment that was hit has its properties -/
theorem hits_props {hit cap : Nat → Bool} (hc : ∀ j, cap j = true → hit j = true) :
    ∀ (ss ts : List (Bool × Ptr × SegMem)) (i : Nat), List.Forall₂ (SlotHit hit) (ss.zipIdx i) ts →
      ∀ s ∈ ts.zipIdx i, s.1.1 = true → cap s.2 = true → s.1.2.2.props.isSome = true := by
  intro ss
  induction ss with
  | nil =>
    intro ts i h s hs
    cases h
    cases hs
  | cons a ss ih =>
    intro ts i h s hs h1 h2
    rw [List.zipIdx_cons] at h
    cases h with
    | cons h ht =>
      rw [List.zipIdx_cons] at hs
      rcases List.mem_cons.1 hs with rfl | hs
      · exact h.2 (by rw [← h.1]; exact h1) (hc _ h2)
      · exact ih _ _ ht s hs h1 h2

theorem saveVp_runs {threads : Nat} (hN : N ≤ threads * 16) (nrank k r : Nat) (hit cap : Nat → Bool)
    (hc : ∀ j, cap j = true → hit j = true) (mine : List Bool) {g : GraphMem} (hg : Filled N g) (L : List (Nat × Alloc)) :
    Runs (g.saveVp threads nrank k r hit cap mine) (graphBlocks g ++ L) (fun _ X => ∃ M : List (Nat × Alloc),
      X.Perm (M ++ (graphBlocks g ++ L)) ∧ M.length = if 0 < r then 1 else 3) := by
  generalize hn : (if 0 < r then 1 else 3) = n
  obtain ⟨A, AT, vp, act, rfl, hA, hAT, hvp, hact⟩ := hg
  generalize hG : graphBlocks ⟨some A, some AT, some vp, some act, true⟩ = G
  have hin : ∀ x ∈ vecBlocks vp, x ∈ G ++ L := by
    intro x hx
    rw [← hG, graphBlocks_some]
    simp only [List.mem_append]
    tauto
  unfold GraphMem.saveVp
  refine (vecEdges_runs hvp k hin).bind ?_
  intro e X hX
  have hrest : ∀ (E : List (Nat × Alloc)), (∀ Y Z : List (Nat × Alloc), Y.Perm (E ++ Z) →
      Runs (if 0 < k then release .mm e else Pure.pure ()) Y (fun _ X => X.Perm Z)) → X = E ++ (G ++ L) →
      Runs (newVec mine >>= fun w => vecIngest threads nrank r hit w >>= fun w =>
        (if 0 < k then release .mm e else pure ()) >>= fun _ => vecSave cap w >>= fun _ => deleteVec w) X
      (fun _ X => ∃ M : List (Nat × Alloc), X.Perm (M ++ (G ++ L)) ∧ M.length = n) := by
    rintro E hE rfl
    refine (newVec_runs N mine _).bind ?_
    rintro w Y ⟨hw, hY⟩
    refine (((vecIngest_runs hN nrank r hit hw _).with (vecIngest_hits threads nrank r hit w)).perm hY).bind ?_
    rintro u Z ⟨hhit, hu, M, hZ, hM⟩
    refine (hE Z (vecBlocks u ++ (M ++ (G ++ L))) (hZ.trans (by perm_parts))).bind ?_
    intro _ W hW
    refine (vecSave_runs hu cap (hits_props hc _ _ 0 hhit) (fun x hx => hW.mem_iff.2 (List.mem_append_left _ hx))).bind ?_
    rintro _ W rfl
    refine ((deleteVec_runs hu _).perm hW).mono ?_
    intro _ V hV
    exact ⟨M, hV, by rw [hM, hn]⟩
  by_cases hk : 0 < k
  · rw [if_pos hk] at hX
    obtain ⟨he, rfl⟩ := hX
    refine hrest (own .mm e) ?_ rfl
    intro Y Z hYZ
    rw [if_pos hk]
    exact (runs_release he hYZ).mono (by rintro _ _ rfl; exact List.Perm.refl _)
  · rw [if_neg hk] at hX
    subst hX
    refine hrest [] ?_ rfl
    intro Y Z hYZ
    rw [if_neg hk]
    exact Runs.pure hYZ

/-! ### Whole programs -/

def tempsBlocks (ts : List TempMem) : List (Nat × Alloc) := ts.flatMap tempBlocks

theorem graphOp_runs {threads : Nat} (hN : N ≤ threads * 16) (nrank : Nat) (op : GraphOp) (hop : op.fills = false) (hf : op.Fits N)
    (s : GraphMem × List TempMem) (hg : Filled N s.1) (ht : ∀ t ∈ s.2, TempGood N t) (L : List (Nat × Alloc)) :
    Runs (op.exec threads nrank s) (graphBlocks s.1 ++ (tempsBlocks s.2 ++ L)) (fun r X => Filled N r.1 ∧
      (∀ t ∈ r.2, TempGood N t) ∧ (graphBlocks s.1).length ≤ (graphBlocks r.1).length ∧ ∃ M : List (Nat × Alloc),
      X.Perm (graphBlocks r.1 ++ (tempsBlocks r.2 ++ (M ++ L))) ∧ M.length = op.forgets) := by
  have hsame : ∀ X : List (Nat × Alloc), X.Perm (graphBlocks s.1 ++ (tempsBlocks s.2 ++ L)) →
      Filled N s.1 ∧ (∀ t ∈ s.2, TempGood N t) ∧ (graphBlocks s.1).length ≤ (graphBlocks s.1).length ∧ ∃ M : List (Nat × Alloc),
      X.Perm (graphBlocks s.1 ++ (tempsBlocks s.2 ++ (M ++ L))) ∧ M.length = 0 :=
    fun X hX => ⟨hg, ht, Nat.le_refl _, [], hX, rfl⟩
  cases op with
  | read => cases hop
  | readFile => cases hop
  | restore => cases hop
  | archive =>
    obtain ⟨g, ts⟩ := s
    have hg0 := hg
    obtain ⟨A, AT, vp, act, rfl, hA, hAT, hvp, hact⟩ := hg
    show Runs ((useMat A >>= fun _ => useMat AT) >>= fun _ => pure _) _ _
    rw [bind_assoc]
    refine (useMat_runs hA ⟨matBlocks DcscMem.blocks AT ++ (vecBlocks vp ++ (vecBlocks act ++ (tempsBlocks ts ++ L))), by
        rw [graphBlocks_some]; perm_parts⟩).bind ?_
    intro _ X hX
    refine (useMat_runs hAT (L := X) ⟨matBlocks DcscMem.blocks A ++ (vecBlocks vp ++ (vecBlocks act ++ (tempsBlocks ts ++ L))),
        hX.trans (by rw [graphBlocks_some]; perm_parts)⟩).bind ?_
    intro _ Y hY
    exact Runs.pure (hsame _ (hY.trans hX))
  | setActive =>
    refine (setAllActive_runs hN hg _).bind ?_
    rintro g X ⟨hg', hl, hX⟩
    exact Runs.pure ⟨hg', ht, hl, [], hX, rfl⟩
  | setVp =>
    refine (setAllVp_runs hN hg _).bind ?_
    rintro g X ⟨hg', hl, hX⟩
    exact Runs.pure ⟨hg', ht, hl, [], hX, rfl⟩
  | act active j a =>
    obtain ⟨g, ts⟩ := s
    obtain ⟨A, AT, vp, act, rfl, hA, hAT, hvp, hact⟩ := hg
    cases active with
    | false =>
      show Runs (pure vp >>= fun v => vecAct threads j a v >>= _) _ _
      rw [pure_bind]
      refine ((vecAct_runs hN j a hf hvp (matBlocks DcscMem.blocks A ++ (matBlocks DcscMem.blocks AT ++ (vecBlocks act ++
        (tempsBlocks ts ++ L))))).perm (by rw [graphBlocks_some]; perm_parts)).bind ?_
      rintro w X ⟨hw, hl, hX⟩
      refine Runs.pure ⟨⟨A, AT, w, act, rfl, hA, hAT, hw, hact⟩, ht, ?_, [], hX.trans ?_, rfl⟩
      · rw [graphBlocks_some, graphBlocks_some]
        simp only [List.length_append]
        omega
      · rw [graphBlocks_some, List.nil_append]
        perm_parts
    | true =>
      show Runs (pure act >>= fun v => vecAct threads j a v >>= _) _ _
      rw [pure_bind]
      refine ((vecAct_runs hN j a hf hact (matBlocks DcscMem.blocks A ++ (matBlocks DcscMem.blocks AT ++ (vecBlocks vp ++
        (tempsBlocks ts ++ L))))).perm (by rw [graphBlocks_some]; perm_parts)).bind ?_
      rintro w X ⟨hw, hl, hX⟩
      refine Runs.pure ⟨⟨A, AT, vp, w, rfl, hA, hAT, hvp, hw⟩, ht, ?_, [], hX.trans ?_, rfl⟩
      · rw [graphBlocks_some, graphBlocks_some]
        simp only [List.length_append]
        omega
      · rw [graphBlocks_some, List.nil_append]
        perm_parts
  | reduce =>
    refine (reduce_runs hN hg _).bind ?_
    rintro g X ⟨hg', hl, hX⟩
    exact Runs.pure ⟨hg', ht, hl, [], hX, rfl⟩
  | vertices k =>
    have hg0 := hg
    obtain ⟨A, AT, vp, act, e, hA, hAT, hvp, hact⟩ := hg
    have hin : ∀ x ∈ vecBlocks vp, x ∈ graphBlocks s.1 ++ (tempsBlocks s.2 ++ L) := by
      intro x hx
      rw [e, graphBlocks_some]
      simp only [List.mem_append]
      tauto
    have hrw : s.1.getVertexEdgelist k = vecEdges k vp := by rw [e]; rfl
    show Runs (s.1.getVertexEdgelist k >>= fun e => if 0 < k then release .mm e >>= fun _ => pure s else pure s) _ _
    rw [hrw]
    refine (vecEdges_runs hvp k hin).bind ?_
    intro p X hX
    by_cases hk : 0 < k
    · rw [if_pos hk] at hX ⊢
      obtain ⟨hp, rfl⟩ := hX
      refine (runs_release hp (List.Perm.refl _)).bind ?_
      rintro _ _ rfl
      exact Runs.pure (hsame _ (List.Perm.refl _))
    · rw [if_neg hk] at hX ⊢
      subst hX
      exact Runs.pure (hsame _ (List.Perm.refl _))
  | edges =>
    have hg0 := hg
    obtain ⟨A, AT, vp, act, e, hA, hAT, hvp, hact⟩ := hg
    have hrw : s.1.getEdgelist = matEdges dcscClass A := by rw [e]; rfl
    have hperm : (graphBlocks s.1 ++ (tempsBlocks s.2 ++ L)).Perm (matBlocks DcscMem.blocks A ++ (matBlocks DcscMem.blocks AT ++
        (vecBlocks vp ++ (vecBlocks act ++ (tempsBlocks s.2 ++ L))))) := by
      rw [e, graphBlocks_some]
      perm_parts
    show Runs (s.1.getEdgelist >>= fun e => if 0 < e.1 then release .mm e.2 >>= fun _ => pure s else pure s) _ _
    rw [hrw]
    refine ((matEdges_runs dcsc_contract A _ hA).perm hperm).bind ?_
    rintro p X ⟨hp, hX⟩
    by_cases hk : 0 < p.1
    · rw [if_pos hk] at hX ⊢
      refine (runs_release (hp hk) hX).bind ?_
      rintro _ _ rfl
      exact Runs.pure (hsame _ hperm.symm)
    · rw [if_neg hk] at hX ⊢
      exact Runs.pure (hsame _ (hX.trans hperm.symm))
  | save k r hit cap mine =>
    refine (saveVp_runs hN nrank k r hit cap hf mine hg _).bind ?_
    rintro _ X ⟨M, hX, hM⟩
    refine Runs.pure ⟨hg, ht, Nat.le_refl _, M, hX.trans (by perm_parts), ?_⟩
    rw [hM]
    cases r <;> rfl
  | run mine all sts =>
    show Runs ((newTemps threads mine >>= fun t => s.1.runWith threads all (runSteps threads sts) t >>= fun r =>
      deleteTemps r.2 >>= fun _ => pure r.1) >>= fun g => pure (g, s.2)) _ _
    rw [bind_assoc]
    refine (newTemps_runs hN mine _).bind ?_
    rintro t X ⟨htg, hX⟩
    rw [bind_assoc]
    refine ((runWith_runs hN all sts hf htg hg (tempsBlocks s.2 ++ L)).perm (hX.trans (by perm_parts))).bind ?_
    rintro r Y ⟨hr, htr, hl, hY⟩
    rw [bind_assoc]
    refine ((deleteTemps_runs htr (graphBlocks r.1 ++ (tempsBlocks s.2 ++ L))).perm (hY.trans (by perm_parts))).bind ?_
    intro _ Z hZ
    exact Runs.pure ⟨hr, ht, hl, [], hZ, rfl⟩
  | init mine =>
    refine (newTemps_runs hN mine _).bind ?_
    rintro t X ⟨htg, hX⟩
    refine Runs.pure ⟨hg, ?_, Nat.le_refl _, [], hX.trans ?_, rfl⟩
    · intro u hu
      rcases List.mem_cons.1 hu with rfl | hu
      · exact htg
      · exact ht u hu
    · unfold tempsBlocks
      rw [List.flatMap_cons]
      perm_parts
  | runWith i all sts =>
    cases hi : s.2[i]? with
    | none =>
      simp only [GraphOp.exec, hi]
      exact Runs.pure (hsame _ (List.Perm.refl _))
    | some t =>
      simp only [GraphOp.exec, hi]
      have hp := flatMap_at tempBlocks s.2 i t hi
      have hp' : (graphBlocks s.1 ++ (tempsBlocks s.2 ++ L)).Perm (graphBlocks s.1 ++ (tempBlocks t ++
          ((s.2.eraseIdx i).flatMap tempBlocks ++ L))) := by
        refine ((hp.append_right L).append_left _).trans ?_
        perm_parts
      refine ((runWith_runs hN all sts hf (ht t (List.mem_of_getElem? hi)) hg _).perm hp').bind ?_
      rintro r X ⟨hr, htr, hl, hX⟩
      refine Runs.pure ⟨hr, set_good ht htr, hl, [], hX.trans ?_, rfl⟩
      have hq := flatMap_set tempBlocks s.2 i t r.2 hi
      refine List.Perm.symm (((hq.append_right _).append_left _).trans ?_)
      rw [List.nil_append]
      perm_parts
  | clear i =>
    cases hi : s.2[i]? with
    | none =>
      simp only [GraphOp.exec, hi]
      exact Runs.pure (hsame _ (List.Perm.refl _))
    | some t =>
      simp only [GraphOp.exec, hi]
      have hp := flatMap_at tempBlocks s.2 i t hi
      have hp' : (graphBlocks s.1 ++ (tempsBlocks s.2 ++ L)).Perm (tempBlocks t ++ (graphBlocks s.1 ++
          ((s.2.eraseIdx i).flatMap tempBlocks ++ L))) := by
        refine ((hp.append_right L).append_left _).trans ?_
        perm_parts
      refine ((deleteTemps_runs (ht t (List.mem_of_getElem? hi)) _).perm hp').bind ?_
      intro _ X hX
      exact Runs.pure ⟨hg, fun u hu => ht u (List.mem_of_mem_eraseIdx hu), Nat.le_refl _, [], hX, rfl⟩

theorem graphOps_runs {threads : Nat} (hN : N ≤ threads * 16) (nrank : Nat) (ops : List GraphOp) (hf : ∀ op ∈ ops, op.Fits N) :
    ∀ (s : GraphMem × List TempMem) (_ : Filled N s.1) (_ : ∀ t ∈ s.2, TempGood N t) (c : Nat)
      (_ : c ≤ (graphBlocks s.1).length) (L : List (Nat × Alloc)),
    Runs (runGraphOps threads nrank ops s) (graphBlocks s.1 ++ (tempsBlocks s.2 ++ L)) (fun r X => Filled N r.1 ∧
      (∀ t ∈ r.2, TempGood N t) ∧ ∃ M : List (Nat × Alloc),
      X.Perm (graphBlocks r.1 ++ (tempsBlocks r.2 ++ (M ++ L))) ∧ leastLeak c ops ≤ M.length ∧
      ((∀ op ∈ ops, op.fills = false) → M.length = (ops.map GraphOp.forgets).sum)) := by
  induction ops with
  | nil => exact fun s hg ht c hc L => Runs.pure ⟨hg, ht, [], List.Perm.refl _, Nat.le_refl _, fun _ => rfl⟩
  | cons op ops ih =>
    intro s hg ht c hc L
    have ih := ih (fun o ho => hf o (List.mem_cons_of_mem _ ho))
    cases hop : op.fills with
    | false =>
      refine (graphOp_runs hN nrank op hop (hf _ List.mem_cons_self) s hg ht L).bind ?_
      rintro r X ⟨hr, htr, hl, M, hX, hM⟩
      refine ((ih r hr htr c (Nat.le_trans hc hl) (M ++ L)).perm hX).mono ?_
      rintro q Y ⟨hq, htq, M', hY, hM', hsum⟩
      refine ⟨hq, htq, M' ++ M, hY.trans (by perm_parts), ?_, ?_⟩
      · simp only [leastLeak, hop, List.length_append]
        simp only [Bool.false_eq_true, if_false]
        omega
      · intro hall
        rw [List.length_append, hsum (fun o ho => hall o (List.mem_cons_of_mem _ ho)), hM, List.map_cons, List.sum_cons]
        omega
    | true =>
      refine (fills_runs hN nrank op hop s _).bind ?_
      rintro r X ⟨hr, he, hcost, M, hX, hM⟩
      have hX' : X.Perm (graphBlocks r.1 ++ (tempsBlocks r.2 ++ (graphBlocks s.1 ++ (M ++ L)))) := by
        rw [he]
        exact hX.trans (by perm_parts)
      refine ((ih r hr (by rw [he]; exact ht) op.cost (Nat.le_of_eq hcost.symm) _).perm hX').mono ?_
      rintro q Y ⟨hq, htq, M', hY, hM', hsum⟩
      refine ⟨hq, htq, M' ++ (graphBlocks s.1 ++ M), hY.trans (by perm_parts), ?_, ?_⟩
      · simp only [leastLeak, hop, List.length_append, if_true]
        omega
      · intro hall
        have := hall op List.mem_cons_self
        rw [hop] at this
        cases this

theorem deleteAllTemps_runs : ∀ (ts : List TempMem), (∀ t ∈ ts, TempGood N t) → ∀ L,
    Runs (deleteAllTemps ts) (tempsBlocks ts ++ L) (fun _ X => X.Perm L) := by
  intro ts
  induction ts with
  | nil => exact fun _ L => Runs.pure (List.Perm.refl _)
  | cons t ts ih =>
    intro hts L
    unfold tempsBlocks
    rw [List.flatMap_cons, List.append_assoc]
    refine (deleteTemps_runs (hts t List.mem_cons_self) _).bind ?_
    intro _ X hX
    exact (ih (fun u hu => hts u (List.mem_cons_of_mem _ hu)) L).perm hX

theorem destroy_runs {g : GraphMem} (hg : Filled N g) (L : List (Nat × Alloc)) :
    Runs g.destroy (graphBlocks g ++ L) (fun _ X => X.Perm L) := by
  obtain ⟨A, AT, vp, act, rfl, hA, hAT, hvp, hact⟩ := hg
  rw [graphBlocks_some]
  show Runs (deleteMat dcscClass A >>= fun _ => deleteMat dcscClass AT >>= fun _ => deleteVec vp >>= fun _ => deleteVec act) _ _
  refine ((deleteMat_runs dcsc_contract A (matBlocks DcscMem.blocks AT ++ (vecBlocks vp ++ (vecBlocks act ++ L))) hA).perm
    (by perm_parts)).bind ?_
  intro _ X hX
  refine ((deleteMat_runs dcsc_contract AT _ hAT).perm hX).bind ?_
  intro _ Y hY
  refine ((deleteVec_runs hvp _).perm hY).bind ?_
  intro _ Z hZ
  exact (deleteVec_runs hact L).perm hZ

/-- A whole program with a graph that is filled at first. -/
theorem graphLife_runs {threads : Nat} (hN : N ≤ threads * 16) (nrank : Nat) (op : GraphOp) (ops : List GraphOp)
    (hop : op.fills = true) (hf : ∀ o ∈ op :: ops, o.Fits N) (L : List (Nat × Alloc)) :
    Runs (graphLife threads nrank (op :: ops)) L (fun _ X => ∃ M : List (Nat × Alloc), X.Perm (M ++ L) ∧
      leastLeak 0 (op :: ops) ≤ M.length ∧
      ((∀ o ∈ ops, o.fills = false) → M.length = ((op :: ops).map GraphOp.forgets).sum)) := by
  show Runs ((op.exec threads nrank (GraphMem.fresh, []) >>= fun s => runGraphOps threads nrank ops s) >>= fun s =>
    deleteAllTemps s.2 >>= fun _ => s.1.destroy) L _
  rw [bind_assoc]
  refine (fills_runs hN nrank op hop _ _).bind ?_
  rintro s X ⟨hs, he, hcost, M, hX, hM⟩
  have hX' : X.Perm (graphBlocks s.1 ++ (tempsBlocks s.2 ++ (M ++ L))) := by
    rw [he]
    exact hX
  refine ((graphOps_runs hN nrank ops (fun o ho => hf o (List.mem_cons_of_mem _ ho)) s hs (by rw [he]; simp) op.cost
    (Nat.le_of_eq hcost.symm) _).perm hX').bind ?_
  rintro r Y ⟨hr, htr, M', hY, hM', hsum⟩
  refine ((deleteAllTemps_runs r.2 htr (graphBlocks r.1 ++ (M' ++ (M ++ L)))).perm (hY.trans (by perm_parts))).bind ?_
  intro _ Z hZ
  refine ((destroy_runs hr _).perm hZ).mono ?_
  intro _ W hW
  refine ⟨M' ++ M, hW.trans (by perm_parts), ?_, ?_⟩
  · simp only [leastLeak, hop, List.length_append, if_true]
    omega
  · intro hall
    rw [List.length_append, hsum hall, hM, List.map_cons, List.sum_cons]
    omega

end GraphMat

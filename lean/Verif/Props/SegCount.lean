import Verif.Model.SegCount
import Verif.Lemmas.SaveVec
import Verif.Lemmas.Compress
import Verif.Spec.Samples
import Mathlib.Data.List.Nodup

/-!
# C78: the element count that a segment stores
-/
namespace GraphMat

variable {α : Type}

/-! ### Counting -/

theorem countP_range_set (p : Nat → Bool) (b : Bool) {j n : Nat} (hj : j < n) :
    ((List.range n).countP (fun i => if i = j then b else p i) : Int) =
      (List.range n).countP p + (if b then 1 else 0) - (if p j then 1 else 0) := by
  induction n with
  | zero => omega
  | succ n ih =>
    rw [List.range_succ, List.countP_append, List.countP_append]
    simp only [List.countP_singleton]
    by_cases h : j = n
    · subst h
      have : (List.range j).countP (fun i => if i = j then b else p i) = (List.range j).countP p := by
        apply List.countP_congr
        intro i hi
        rw [if_neg (by have := List.mem_range.mp hi; omega)]
      rw [this]
      simp only [if_true]
      push_cast
      cases b <;> cases p j <;> simp
    · have := ih (by omega)
      rw [if_neg (show ¬ n = j by omega)]
      push_cast
      omega

/-- The stored count is the number of elements, or 0 for a buffer that waits to be initialised. -/
def Segment.Counted (s : Segment α) : Prop :=
  ∀ b, s.props = some b → b.nnz = ((List.range s.capacity).countP (fun i => (s.view i).isSome) : Nat)

theorem Segment.Counted.initialized {s : Segment α} (h : s.Counted) {b : Buffer α}
    (h6 : ∀ b0, s.props = some b0 → b0.uninit = false → b = b0)
    (h7 : (∀ b0, s.props = some b0 → b0.uninit = true) → b.nnz = 0) :
    b.nnz = ((List.range s.capacity).countP (fun i => (s.view i).isSome) : Nat) := by
  by_cases hq : ∃ b0, s.props = some b0 ∧ b0.uninit = false
  · obtain ⟨b0, e1, e2⟩ := hq
    rw [h6 b0 e1 e2, h b0 e1]
  · have hall : ∀ b0, s.props = some b0 → b0.uninit = true := by
      intro b0 e
      by_contra hc
      exact hq ⟨b0, e, by simpa using hc⟩
    rw [h7 hall]
    have : (List.range s.capacity).countP (fun i => (s.view i).isSome) = 0 := by
      rw [List.countP_eq_zero]
      intro i _
      unfold Segment.view
      cases hp : s.props with
      | none => simp
      | some b0 => simp [Buffer.view, hall b0 hp]
    rw [this]; rfl

theorem Segment.view_of_props {s : Segment α} {b : Buffer α} (h : s.props = some b) : s.view = b.view := by
  funext i; simp [Segment.view, h]

theorem Segment.set_counted {s : Segment α} (h : s.WF) (hc : s.Counted) (g : Fresh α) {idx : Nat} (h1 : 1 ≤ idx)
    (h2 : idx ≤ s.capacity) (v : α) {s' : Segment α} (hs' : s.set g idx v = some s') : s'.Counted := by
  obtain ⟨b, hb, hu, hd, ht, hv, h6, h7⟩ := s.alloc_initialize h g
  have hn := hc.initialized h6 h7
  obtain ⟨s2, a1, a2, a3, a4, _, _, a7⟩ := Segment.set_spec h g h1 h2 v
  rw [a1] at hs'; cases hs'
  unfold Segment.set at a1
  rw [hb, natIdx_pred h1] at a1
  simp only [Option.bind_eq_bind, Option.bind_some] at a1
  have hi : idx - 1 < s.capacity := by omega
  have hw : (idx - 1) / 32 < b.bits.size := by rw [hd.bits, h.ni]; exact word_lt hi
  rw [getBitvector_eq hw] at a1
  simp only [Option.bind_some] at a1
  rw [Arr.write_some (by rw [hd.value]; exact hi)] at a1
  simp only [Option.bind_some] at a1
  obtain ⟨bits, hs, _, _, _⟩ := setBitvector_spec hw
  rw [hs] at a1
  have hbit : (s.view (idx - 1)).isSome = bitAt b.bits (idx - 1) := by
    rw [← hv, Buffer.view_of_init hu]
    have : idx - 1 < b.value.size := by rw [hd.value]; exact hi
    cases hb' : bitAt b.bits (idx - 1) <;> simp [this]
  intro b' hb'
  have ha := a4
  have hvw := a7
  cases a1
  cases hb'
  simp only
  rw [hvw]
  have hcnt := countP_range_set (fun i => (s.view i).isSome) true hi
  have e : (fun i => (if i = idx - 1 then some v else s.view i).isSome) =
      (fun i => if i = idx - 1 then true else (s.view i).isSome) := by
    funext i; split <;> rfl
  rw [e, hcnt, hbit, hn]
  cases bitAt b.bits (idx - 1) <;> simp

theorem Segment.unset_counted {s : Segment α} (h : s.WF) (hc : s.Counted) (g : Fresh α) {idx : Nat} (h1 : 1 ≤ idx)
    (h2 : idx ≤ s.capacity) {s' : Segment α} (hs' : s.unset g idx = some s') : s'.Counted := by
  obtain ⟨b, hb, hu, hd, ht, hv, h6, h7⟩ := s.alloc_initialize h g
  have hn := hc.initialized h6 h7
  obtain ⟨s2, a1, a2, a3, a4, _, _, a7⟩ := Segment.unset_spec h g h1 h2
  rw [a1] at hs'; cases hs'
  unfold Segment.unset at a1
  rw [hb, natIdx_pred h1] at a1
  simp only [Option.bind_eq_bind, Option.bind_some] at a1
  have hi : idx - 1 < s.capacity := by omega
  have hw : (idx - 1) / 32 < b.bits.size := by rw [hd.bits, h.ni]; exact word_lt hi
  rw [getBitvector_eq hw] at a1
  simp only [Option.bind_some] at a1
  obtain ⟨bits, hs, _, _, _⟩ := clearBitvector_spec hw
  rw [hs] at a1
  have hbit : (s.view (idx - 1)).isSome = bitAt b.bits (idx - 1) := by
    rw [← hv, Buffer.view_of_init hu]
    have : idx - 1 < b.value.size := by rw [hd.value]; exact hi
    cases hb' : bitAt b.bits (idx - 1) <;> simp [this]
  intro b' hb'
  have hvw := a7
  cases a1
  cases hb'
  simp only
  rw [hvw]
  have hcnt := countP_range_set (fun i => (s.view i).isSome) false hi
  have e : (fun i => (if i = idx - 1 then none else s.view i).isSome) =
      (fun i => if i = idx - 1 then false else (s.view i).isSome) := by
    funext i; split <;> rfl
  rw [e, hcnt, hbit, hn]
  cases bitAt b.bits (idx - 1) <;> simp

theorem Segment.setAll_counted {s : Segment α} (h : s.WF) (hcap : 1 ≤ s.capacity) (g : Fresh α) (v : α)
    {s' : Segment α} (hs' : s.setAll g v = some s') : s'.Counted := by
  obtain ⟨s2, a1, a2, a3, a4, _, _, a7⟩ := Segment.setAll_spec h g v
  rw [a1] at hs'; cases hs'
  have hni := h.ni
  unfold Segment.setAll at a1
  simp only [Option.bind_eq_bind, Option.bind_eq_some_iff] at a1
  obtain ⟨b, hb, a1⟩ := a1
  have e1 : (s.alloc g).numInts = s.numInts := by unfold Segment.alloc; cases s.props <;> rfl
  have e2 : (s.alloc g).capacity = s.capacity := by unfold Segment.alloc; cases s.props <;> rfl
  rw [if_neg (by omega)] at a1
  simp only [Option.bind_eq_some_iff] at a1
  obtain ⟨w1, _, w2, _, w3, _, w4, _, a1⟩ := a1
  intro b' hb'
  rw [a7, a4]
  have hall : (List.range s.capacity).countP (fun i => (if i < s.capacity then some v else none : Option α).isSome) =
      s.capacity := by
    rw [List.countP_eq_length.2 (fun i hi => by simp [List.mem_range.mp hi]), List.length_range]
  rw [hall]
  cases a1
  cases hb'
  simp only [e2]

theorem Segment.setUninitialized_counted {s : Segment α} : s.setUninitialized.Counted := by
  intro b hb
  rw [Segment.setUninitialized_view]
  simp only [Segment.setUninitialized, Option.map_eq_some_iff] at hb
  obtain ⟨b', _, rfl⟩ := hb
  simp

/-! ### C78 -/

/-- The call is `set_uninitialized`. -/
def VecOp.isClear : VecOp α → Bool
  | .clear => true
  | _ => false

/-- C78 for calls on one segment: after any history of `set`, `unset`, `setAll` and `set_uninitialized` on a new segment of
at least one element, whatever memory the buffer was given, the stored count is the number of elements; there is no buffer
(NULL) exactly if all calls were `set_uninitialized`. -/
theorem stored_nnz_partial {n : Nat} (hn : 1 ≤ n) (g : Nat → Fresh α) (ops : List (VecOp α)) (hops : ∀ op ∈ ops, op.Valid n) :
    ∃ s, (ops.zipIdx).foldlM (fun s (op : VecOp α × Nat) => op.1.execSeg (g op.2) s) (Segment.new n) = some s ∧
      s.storedNnz = (if ops.all VecOp.isClear then none else
        some (((List.range n).countP
          (fun j => (ops.foldl (fun m op => op.spec m) (fun _ => none) (j + 1)).isSome) : Nat) : Int)) := by
  have key : ∀ (ops : List (VecOp α)), (∀ op ∈ ops, op.Valid n) → ∀ (k : Nat) (s : Segment α) (m : Nat → Option α),
      s.WF → s.capacity = n → s.Counted → (∀ i, i < n → s.view i = m (i + 1)) →
      ∃ s', (ops.zipIdx k).foldlM (fun s (op : VecOp α × Nat) => op.1.execSeg (g op.2) s) s = some s' ∧
        s'.capacity = n ∧ s'.Counted ∧ (∀ i, i < n → s'.view i = ops.foldl (fun m op => op.spec m) m (i + 1)) ∧
        (s'.props.isNone = (s.props.isNone && ops.all VecOp.isClear)) := by
    intro ops
    induction ops with
    | nil => intro _ k s m h1 h2 h3 h4; exact ⟨s, rfl, h2, h3, h4, by simp⟩
    | cons op ops ih =>
      intro hv k s m h1 h2 h3 h4
      obtain ⟨s1, b1, b2, b3, b4, b5, b6⟩ : ∃ s1, op.execSeg (g k) s = some s1 ∧ s1.WF ∧ s1.capacity = n ∧ s1.Counted ∧
          (∀ i, i < n → s1.view i = op.spec m (i + 1)) ∧
          s1.props.isNone = (s.props.isNone && op.isClear) := by
        cases op with
        | set w x =>
          have hw := hv _ List.mem_cons_self
          obtain ⟨s1, c1, c2, ⟨b, c3, _⟩, c4, _, _, c7⟩ := Segment.set_spec h1 (g k) hw.1 (h2 ▸ hw.2) x
          refine ⟨s1, c1, c2, by omega, Segment.set_counted h1 h3 (g k) hw.1 (h2 ▸ hw.2) x c1, ?_, by simp [c3, VecOp.isClear]⟩
          intro i hi
          rw [c7]
          simp only [VecOp.spec]
          have := hw.1
          by_cases e : i = w - 1
          · rw [if_pos e, if_pos (by omega)]
          · rw [if_neg e, if_neg (by omega), h4 i hi]
        | unset w =>
          have hw := hv _ List.mem_cons_self
          obtain ⟨s1, c1, c2, ⟨b, c3, _⟩, c4, _, _, c7⟩ := Segment.unset_spec h1 (g k) hw.1 (h2 ▸ hw.2)
          refine ⟨s1, c1, c2, by omega, Segment.unset_counted h1 h3 (g k) hw.1 (h2 ▸ hw.2) c1, ?_, by simp [c3, VecOp.isClear]⟩
          intro i hi
          rw [c7]
          simp only [VecOp.spec]
          have := hw.1
          by_cases e : i = w - 1
          · rw [if_pos e, if_pos (by omega)]
          · rw [if_neg e, if_neg (by omega), h4 i hi]
        | setAll x =>
          obtain ⟨s1, c1, c2, ⟨b, c3, _⟩, c4, _, _, c7⟩ := Segment.setAll_spec h1 (g k) x
          refine ⟨s1, c1, c2, by omega, Segment.setAll_counted h1 (by omega) (g k) x c1, ?_, by simp [c3, VecOp.isClear]⟩
          intro i hi
          rw [c7]
          simp only [VecOp.spec]
          rw [if_pos (by omega)]
        | clear =>
          refine ⟨_, rfl, Segment.setUninitialized_WF h1, h2, Segment.setUninitialized_counted, ?_, ?_⟩
          · intro i hi
            rw [Segment.setUninitialized_view]; rfl
          · simp [Segment.setUninitialized, Segment.setUninitializedReceived, VecOp.isClear]
      obtain ⟨s2, e1, e2, e3, e4, e5⟩ := ih (fun o ho => hv o (List.mem_cons_of_mem _ ho)) (k + 1) s1 _ b2 b3 b4 b5
      refine ⟨s2, ?_, e2, e3, e4, ?_⟩
      · rw [List.zipIdx_cons, List.foldlM_cons]
        simp only [b1]
        exact e1
      · rw [e5, b6, List.all_cons, Bool.and_assoc]
  obtain ⟨s, a1, a2, a3, a4, a5⟩ := key ops hops 0 (Segment.new n) (fun _ => none) (Segment.new_WF n) rfl
    (by intro b hb; simp [Segment.new] at hb) (fun i _ => rfl)
  refine ⟨s, a1, ?_⟩
  unfold Segment.storedNnz
  simp only [Segment.new, Option.isNone_none, Bool.true_and] at a5
  cases hp : s.props with
  | none =>
    rw [hp] at a5
    rw [← a5]; rfl
  | some b =>
    rw [hp] at a5
    rw [← a5]
    simp only [Option.isNone_some, Bool.false_eq_true, if_false]
    rw [Option.map_some, a3 b hp, a2]
    congr 2
    apply List.countP_congr
    intro j hj
    rw [a4 j (List.mem_range.mp hj)]

/-- Hypotheses that can be met: `unset` of an absent element keeps the count, a second `set` too. -/
example : (∀ op ∈ ([.unset 3, .set 33 2, .unset 5, .set 33 4, .set 70 1] : List (VecOp Nat)), op.Valid 70) ∧
    (List.range 70).countP (fun j => (([.unset 3, .set 33 2, .unset 5, .set 33 4, .set 70 1] :
      List (VecOp Nat)).foldl (fun m op => op.spec m) (fun _ => none) (j + 1)).isSome) = 2 := by
  refine ⟨?_, by decide⟩
  intro op h
  simp at h
  rcases h with rfl | rfl | rfl | rfl | rfl <;> simp [VecOp.Valid]

/-- C78 is false for a segment without elements: after `setAll` the stored count is whatever was in memory. -/
theorem stored_nnz_indeterminate (g : Fresh α) (x : α) :
    ∃ s, (Segment.new 0 : Segment α).setAll g x = some s ∧ s.storedNnz = some g.nnz ∧ s.computeNnz = some 0 := by
  refine ⟨_, rfl, rfl, ?_⟩
  rfl

/-- C78 for `ingestEdges`: the stored count becomes the number of edges in the list.  That is the number of elements if
the segment was empty and no index occurs twice. -/
theorem stored_nnz_ingest_partial {s : Segment α} (h : s.WF) (g : Fresh α) {st : Nat} {es : List (Edge α)}
    (hes : ∀ e, e ∈ es → (st : Int) + 1 ≤ e.src ∧ e.src ≤ st + s.capacity)
    (hempty : ∀ i, s.view i = none) (hnd : (es.map Edge.src).Nodup) :
    ∃ s', s.ingestEdges g es (st : Int) = some s' ∧ s'.storedNnz = some (es.length : Int) ∧
      s'.computeNnz = some es.length := by
  obtain ⟨s', a1, a2, a3, a4, a5, a6⟩ := Segment.ingestEdges_spec h g hes
  refine ⟨s', a1, ?_, ?_⟩
  · unfold Segment.ingestEdges at a1
    simp only [Option.bind_eq_bind, Option.bind_eq_some_iff] at a1
    obtain ⟨_, _, _, _, _, _, a1⟩ := a1
    cases a1
    rfl
  · rw [Segment.computeNnz_spec a2, a4]
    congr 1
    rw [List.countP_eq_length_filter, ← List.length_map (f := Edge.src) (as := es)]
    have hp : ((es.map Edge.src).map (fun z : Int => (z - st - 1).toNat)).Perm
        ((List.range s.capacity).filter (fun i => (s'.view i).isSome)) := by
      rw [List.perm_ext_iff_of_nodup]
      · intro i
        simp only [List.map_map, List.mem_map, Function.comp_apply, List.mem_filter, List.mem_range]
        constructor
        · rintro ⟨e, he, rfl⟩
          obtain ⟨p1, p2⟩ := hes e he
          obtain ⟨e', _, _, q3⟩ := a5 (e.src - st - 1).toNat ⟨e, he, by omega⟩
          exact ⟨by omega, by rw [q3]; rfl⟩
        · rintro ⟨hi, hs⟩
          by_contra hc
          rw [a6 i (fun e he hee => hc ⟨e, he, by omega⟩), hempty] at hs
          simp at hs
      · refine List.Nodup.map_on ?_ hnd
        intro x hx y hy hxy
        obtain ⟨e1, f1, rfl⟩ := List.mem_map.mp hx
        obtain ⟨e2, f2, rfl⟩ := List.mem_map.mp hy
        have := hes e1 f1
        have := hes e2 f2
        omega
      · exact List.Nodup.filter _ List.nodup_range
    rw [← hp.length_eq, List.length_map]

example : (∀ e ∈ ([⟨12, 1, 5⟩, ⟨11, 1, 6⟩] : List (Edge Nat)), (10 : Int) + 1 ≤ e.src ∧ e.src ≤ 10 + 40) ∧
    (([⟨12, 1, 5⟩, ⟨11, 1, 6⟩] : List (Edge Nat)).map Edge.src).Nodup := by decide

/-- C78 is false for `ingestEdges`: an index that occurs twice is counted twice. -/
theorem stored_nnz_ingest_duplicates :
    ∃ s, (Segment.new 40 : Segment Nat).ingestEdges (.sample 3) [⟨12, 1, 5⟩, ⟨12, 1, 6⟩] 10 = some s ∧
      s.storedNnz = some 2 ∧ s.computeNnz = some 1 := by
  refine ⟨_, rfl, rfl, ?_⟩
  decide +kernel

/-- C78 is false for `ingestEdges`: elements that were there before are not counted. -/
theorem stored_nnz_ingest_forgets :
    ∃ s0 s, (Segment.new 40 : Segment Nat).set (.sample 3) 7 1 = some s0 ∧
      s0.ingestEdges (.sample 3) [⟨12, 1, 5⟩] 10 = some s ∧ s.storedNnz = some 1 ∧ s.computeNnz = some 2 := by
  refine ⟨_, _, rfl, rfl, rfl, ?_⟩
  decide +kernel

/-- The count that `compress` leaves in a segment of a plain type, whatever was stored before: the number of elements, or a
number above half the capacity, which makes sender and receiver move the whole arrays. -/
theorem stored_nnz_after_compress {s : Segment α} (h : s.WF) {threads : Nat} (hth : 0 < threads) (g : Fresh α) :
    ∃ s' k, s.compress false threads g = some s' ∧ s'.storedNnz = some k ∧ s'.computeNnz = s.computeNnz ∧
      (2 * k ≤ s.capacity → s.computeNnz = some k.toNat ∧ 0 ≤ k) := by
  obtain ⟨b, a1, a2, a3, a4, a5, a6, _⟩ := Segment.compress_spec h false hth g
  have hw : ({ s with props := some b } : Segment α).WF := h.congr_props a3 (fun _ => a4)
  have hv : ({ s with props := some b } : Segment α).view = s.view := by
    rw [Segment.view_of_props rfl, a5]
  refine ⟨_, b.nnz, a1, rfl, ?_, ?_⟩
  · rw [Segment.computeNnz_spec hw, Segment.computeNnz_spec h, hv]
  · intro hk
    have hdec : shouldCompress false s.capacity b.nnz = .compressed := by
      unfold shouldCompress
      simp only [Bool.false_eq_true, if_false]
      rw [if_neg (by omega)]
    unfold Buffer.Carries at a6
    rw [hdec] at a6
    obtain ⟨m, e1, _, e3⟩ := a6
    have hlen := congrArg List.length e3.keys
    rw [List.length_map] at hlen
    have hm : (Buffer.records m b.cdata b.cidx).length = m := by simp [Buffer.records]
    refine ⟨?_, by omega⟩
    rw [Segment.computeNnz_spec h, e1, Int.toNat_natCast, ← hm, hlen, List.countP_eq_length_filter]
    rfl

/-- A wrong count above half the capacity stays. -/
example : ∃ s, ((Segment.new 3 : Segment Nat).ingestEdges (.sample 3) [⟨12, 1, 5⟩, ⟨12, 1, 6⟩] 10).bind
    (fun s => s.compress false 1 (.sample 3)) = some s ∧ s.storedNnz = some 2 ∧ s.computeNnz = some 1 := by
  refine ⟨_, rfl, rfl, ?_⟩
  decide +kernel

end GraphMat

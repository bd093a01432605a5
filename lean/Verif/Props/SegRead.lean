import Verif.Model.SegRead
import Verif.Lemmas.VecList
import Verif.Spec.Samples

/-!
# Reducing and counting one segment (C90)
-/
namespace GraphMat

variable {α : Type}

/-- C90: `compute_nnz(start, finish)` counts the values in the words `start … finish - 1` of the bitvector, 32 elements each, whatever happened to the
segment before. -/
theorem segment_count_words {s : Segment α} (h : s.WF) {lo hi : Nat} (hle : lo ≤ hi) (hhi : hi ≤ s.numInts) :
    s.computeNnzRange lo hi = some ((List.range (32 * (hi - lo))).countP (fun i => (s.view (32 * lo + i)).isSome)) := by
  unfold Segment.computeNnzRange
  cases hp : s.props with
  | none => simp [Segment.view, hp]
  | some b =>
    simp only
    have hd := h.dims b hp
    cases hu : b.uninit with
    | true => simp [Segment.view, hp, Buffer.view, hu]
    | false =>
      simp only [Bool.false_eq_true, if_false]
      rw [Buffer.computeNnzRange_spec hle (by rw [hd.bits]; exact hhi)]
      congr 1
      have ht := h.tail b hp hu
      have hni := h.ni
      have hbs := hd.bits
      apply List.countP_congr
      intro i hi'
      have hi' := List.mem_range.mp hi'
      simp only [Segment.view, hp, Buffer.view_of_init hu, hd.value]
      by_cases hc : 32 * lo + i < s.capacity
      · simp only [hc, true_and]
        split <;> simp_all
      · rw [ht (32 * lo + i) (by omega) (by omega)]
        simp

/-- C90: the words together have all the values. -/
theorem segment_count_all {s : Segment α} (h : s.WF) : s.computeNnzRange 0 s.numInts = s.computeNnz := by
  unfold Segment.computeNnzRange Segment.computeNnz Buffer.computeNnz
  cases hp : s.props with
  | none => rfl
  | some b =>
    simp only
    rw [(h.dims b hp).bits]

/-- C90: counts of adjacent ranges of words add up. -/
theorem segment_count_split {s : Segment α} (h : s.WF) {a b c : Nat} (hab : a ≤ b) (hbc : b ≤ c) (hc : c ≤ s.numInts) :
    ∃ x y, s.computeNnzRange a b = some x ∧ s.computeNnzRange b c = some y ∧ s.computeNnzRange a c = some (x + y) := by
  refine ⟨_, _, segment_count_words h hab (by omega), segment_count_words h hbc hc, ?_⟩
  rw [segment_count_words h (by omega) hc]
  congr 1
  rw [show 32 * (c - a) = 32 * (b - a) + 32 * (c - b) by omega, List.range_add, List.countP_append, List.countP_map]
  congr 1
  apply List.countP_congr
  intro i _
  simp only [Function.comp_apply]
  rw [show 32 * a + (32 * (b - a) + i) = 32 * b + i by omega]

/-- The values of a segment in the order of their indices. -/
def Segment.values (s : Segment α) : List α := (List.range s.capacity).filterMap s.view

/-- C90, as far as it holds: on a segment in use, `reduce_segment` combines the initial value with all values in the order of their indices.
Missing: segments that were cleared (`reduce_segment_cleared`) or never written (`reduce_segment_null`). -/
theorem reduce_segment_partial {s : Segment α} (h : s.WF) (hr : s.Ready) (op : α → α → α) (res : α) :
    reduceSegment op s res = some (s.values.foldl op res) := by
  obtain ⟨b, hb, hu⟩ := hr
  have hd := h.dims b hb
  have hni := h.ni
  unfold reduceSegment reduceDense Segment.values
  rw [hb]
  simp only [Option.bind_eq_bind, Option.bind_some]
  obtain ⟨r, r1, r2⟩ := forLoop_inv (lo := 0) (hi := s.capacity) (s := res)
    (body := fun i res => (getBitvector i b.bits).bind fun bit => if bit = true then (b.value.read i).bind fun v => some (op res v) else some res)
    (fun k r => r = ((List.range k).filterMap s.view).foldl op res) (Nat.zero_le _) rfl (by
      intro i r _ hi hr
      rw [getBitvector_eq (by rw [hd.bits]; omega), Option.bind_some, List.range_succ, List.filterMap_append, List.foldl_append, ← hr]
      have hv : s.view i = if bitAt b.bits i = true then some (b.value.get i) else none := by
        simp only [Segment.view, hb, Buffer.view_of_init hu, hd.value, hi, true_and]
      cases hbit : bitAt b.bits i with
      | true =>
        rw [hbit, if_pos rfl] at hv
        rw [if_pos rfl, Arr.read_some (by rw [hd.value]; exact hi)]
        exact ⟨_, rfl, by simp [hv]⟩
      | false =>
        rw [hbit, if_neg (by decide)] at hv
        rw [if_neg (by decide)]
        exact ⟨_, rfl, by simp [hv]⟩)
  rw [r1, r2]

/-- C90 fails for a segment that was cleared: `reduce_segment` gives what it gave before, although the segment has no values. -/
theorem reduce_segment_cleared {s : Segment α} (op : α → α → α) (res : α) :
    reduceSegment op s.setUninitialized res = reduceSegment op s res ∧ ∀ i, s.setUninitialized.view i = none := by
  unfold reduceSegment Segment.setUninitialized Segment.setUninitializedReceived Segment.view
  cases s.props with
  | none => exact ⟨rfl, fun _ => rfl⟩
  | some b => exact ⟨rfl, fun _ => rfl⟩

/-- C90 fails for a segment that was never written: a null pointer is dereferenced. -/
theorem reduce_segment_null (n : Nat) (op : α → α → α) (res : α) : reduceSegment op (Segment.new n) res = none := rfl

/-- A segment with two values: it can be reduced and counted, and after `Clear` it is reduced to the same value but counted as empty. -/
example :
    let s := (((Segment.new 40 : Segment Nat).set (.sample 7) 2 5).bind (·.set (.sample 7) 35 3))
    s.bind (fun s => reduceSegment (· - ·) s 100) = some 92 ∧ s.bind (·.computeNnzRange 0 1) = some 1 ∧ s.bind (·.computeNnzRange 1 2) = some 1 ∧
    s.bind (·.computeNnzRange 0 2) = some 2 ∧
    s.bind (fun s => reduceSegment (· - ·) s.setUninitialized 100) = some 92 ∧ s.bind (fun s => s.setUninitialized.computeNnzRange 0 2) = some 0 := by
  decide +kernel

/-- The hypotheses of the theorems for a segment of 40 elements with one value. -/
example : ∃ s : Segment Nat, (Segment.new 40 : Segment Nat).set (.sample 7) 35 3 = some s ∧
    reduceSegment (· + ·) s 100 = some (s.values.foldl (· + ·) 100) ∧
    ∃ x y, s.computeNnzRange 0 1 = some x ∧ s.computeNnzRange 1 2 = some y ∧ s.computeNnzRange 0 2 = some (x + y) := by
  obtain ⟨s, a1, a2, a3, a4, _⟩ := Segment.set_spec (Segment.new_WF (α := Nat) 40) (.sample 7) (idx := 35) (by decide) (by decide) 3
  exact ⟨s, a1, reduce_segment_partial a2 a3 _ _, segment_count_split a2 (by decide) (by decide) (by rw [a2.ni, a4]; decide)⟩

end GraphMat

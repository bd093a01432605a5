import Verif.Model.TopSort
import Verif.Lemmas.AppRun
import Verif.Lemmas.Levels

namespace GraphMat

/-- Adding ones. -/
theorem Reduces.ones {l : List (Option Int)} {x : Option Int} (h : Reduces GraphMat.addInt l (some x)) (hl : ∀ u ∈ l, u = some 1)
    (hs : l.length ≤ IMAX) : x = some (l.length : Int) ∧ 0 < l.length := by
  have hsum : (l.map (fun u : Option Int => (u.getD 0).toNat)).sum = l.length := by
    clear h hs
    induction l with
    | nil => rfl
    | cons a l ih =>
      rw [List.map_cons, List.sum_cons, ih (fun u hu => hl u (List.mem_cons_of_mem _ hu)),
        hl a (List.mem_cons_self ..), List.length_cons]
      show 1 + l.length = _
      omega
  refine ⟨?_, ?_⟩
  · have := Reduces.addInt h (fun u hu => ⟨1, by rw [hl u hu]; rfl⟩) (by rw [hsum]; exact hs)
    rw [this, hsum]
  · cases l with
    | nil =>
      rcases h with ⟨_, h⟩ | ⟨t, h1, _⟩
      · cases h
      · exfalso
        have hpos : ∀ t : RTree (Option Int), 0 < t.leaves.length := by
          intro t
          induction t with
          | leaf u => simp [RTree.leaves]
          | node l r ihl ihr => simp only [RTree.leaves, List.length_append]; omega
        have h2 := hpos t
        rw [h1.length_eq, List.length_nil] at h2
        omega
    | cons a l => simp

/-- Number of edges into `v` whose source satisfies `p`. -/
def inFrom {E : Type} (es : List (Edge E)) (p : Nat → Bool) (v : Nat) : Nat :=
  es.countP (fun e => decide (e.dst = (v : Int)) && p e.src.toNat)

theorem inFrom_true {E : Type} (es : List (Edge E)) (v : Nat) : inFrom es (fun _ => true) v = inDegree es v := by
  unfold inFrom inDegree; simp

theorem inFrom_le {E : Type} (es : List (Edge E)) (p : Nat → Bool) (v : Nat) : inFrom es p v ≤ inDegree es v := by
  unfold inFrom inDegree
  apply List.countP_mono_left
  intro e _ h
  simp at h ⊢
  exact h.1

theorem inFrom_split {E : Type} (es : List (Edge E)) {p q r : Nat → Bool} (v : Nat)
    (h : ∀ e ∈ es, e.dst = (v : Int) → (p e.src.toNat = true ↔ (q e.src.toNat = true ∨ r e.src.toNat = true)) ∧
      ¬ (q e.src.toNat = true ∧ r e.src.toNat = true)) :
    inFrom es p v = inFrom es q v + inFrom es r v := by
  unfold inFrom
  induction es with
  | nil => rfl
  | cons a l ih =>
    rw [List.countP_cons, List.countP_cons, List.countP_cons, ih (fun e he => h e (List.mem_cons_of_mem _ he))]
    by_cases hd : a.dst = (v : Int)
    · obtain ⟨h1, h2⟩ := h a (List.mem_cons_self ..) hd
      simp only [hd]
      cases hp : p a.src.toNat <;> cases hq : q a.src.toNat <;> cases hr : r a.src.toNat <;> simp_all <;> omega
    · simp [hd]

theorem inFrom_zero {E : Type} {es : List (Edge E)} {p : Nat → Bool} {v : Nat} :
    inFrom es p v = 0 ↔ ∀ e ∈ es, e.dst = (v : Int) → p e.src.toNat = false := by
  unfold inFrom
  rw [List.countP_eq_zero]
  simp

theorem outMsgs_length {V E T U : Type} (msg : V → T) (proc : T → E → V → U) (es : List (Edge E)) (P : Nat → V)
    (A : Nat → Bool) (d : Nat) : (outMsgs msg proc es P A d).length = inFrom es A d := by
  unfold outMsgs inFrom
  induction es with
  | nil => rfl
  | cons a l ih =>
    rw [List.countP_cons, List.filterMap_cons]
    by_cases h : a.dst = (d : Int) ∧ A a.src.toNat = true
    · rw [if_pos h]; simp only [List.length_cons, ih, h.1, h.2]; simp
    · rw [if_neg h]
      have : (decide (a.dst = (d : Int)) && A a.src.toNat) = false := by
        cases hA : A a.src.toNat <;> simp_all
      simp only [ih, this]; simp

/-! ### The degree pass -/

theorem inDegProg_pure : Program.Pure inDegProg (fun _ _ => 1) (fun _ msg _ _ => some msg) := by
  intro s
  exact ⟨fun _ _ => rfl, fun _ _ _ _ => rfl, fun _ _ _ _ _ => rfl⟩

theorem inDegProg_step {es : List (Edge Int)} {n : Nat} (hdeg : ∀ v, inDegree es v ≤ IMAX) {P P' : Nat → TsV}
    {A' : Nat → Bool} {c : Bool}
    (hs : StepRel (inDegProg.gp ()) (fun _ => 1) (fun msg _ _ => some msg) true n es P (fun _ => true) P' A' c) :
    ∀ v, 1 ≤ v → v ≤ n → P' v = if inDegree es v = 0 then P v else { P v with deg := some (inDegree es v : Int) } := by
  obtain ⟨res, r1, r2, _, _⟩ := hs
  intro v v1 v2
  have e1 := r1 v v1 v2
  have e2 := r2 v v1 v2
  have hlen := outMsgs_length (fun _ : TsV => (1 : Int)) (fun msg (_ : Int) _ => some msg) es P (fun _ => true) v
  rw [inFrom_true] at hlen
  cases hr : res v with
  | none =>
    have h0 : outMsgs (fun _ : TsV => (1 : Int)) (fun msg (_ : Int) _ => some msg) es P (fun _ => true) v = [] :=
      e1.none_iff.mp hr
    rw [h0, List.length_nil] at hlen
    rw [if_pos hlen.symm, e2, hr]
    rfl
  | some x =>
    rw [hr] at e1
    have e1' : Reduces addInt (outMsgs (fun _ : TsV => (1 : Int)) (fun msg (_ : Int) _ => some msg) es P (fun _ => true) v)
      (some x) := e1
    obtain ⟨o1, o2⟩ := e1'.ones (by
      intro u hu
      simp only [outMsgs, List.mem_filterMap] at hu
      obtain ⟨e, _, he⟩ := hu
      split at he
      · injection he with he; exact he.symm
      · cases he) (by rw [hlen]; exact hdeg v)
    rw [hlen] at o1 o2
    rw [if_neg (by omega), e2, hr, o1]
    rfl

/-! ### The sort -/

theorem topProg_pure : Program.Pure topProg (fun _ v => decide (v.deg = some 0)) (fun _ msg _ _ => some (if msg then 1 else 0)) := by
  intro s
  exact ⟨fun _ _ => rfl, fun _ _ _ _ => rfl, fun _ _ _ _ _ => rfl⟩

open Classical in
/-- Vertices whose incoming walks have fewer than `k` edges. -/
noncomputable def settledB (es : List (Edge Int)) (k v : Nat) : Bool := decide (Settled es k v)

theorem settledB_iff {es : List (Edge Int)} {k v : Nat} : settledB es k v = true ↔ Settled es k v := by
  unfold settledB; exact @decide_eq_true_iff _ (Classical.propDecidable _)

theorem settledB_false {es : List (Edge Int)} {k v : Nat} : settledB es k v = false ↔ ¬ Settled es k v := by
  rw [← settledB_iff]; simp

theorem settled_succ_count {es : List (Edge Int)} {n k v : Nat} (hv : ∀ e ∈ es, e.Valid n) :
    Settled es (k + 1) v ↔ inFrom es (fun u => !settledB es k u) v = 0 := by
  rw [inFrom_zero, settled_succ]
  constructor
  · intro h e he hd
    obtain ⟨a1, _, _, _⟩ := hv e he
    have := h e he e.src.toNat (by omega) hd
    rw [settledB_iff.mpr this]; rfl
  · intro h e he u h1 h2
    have := h e he h2
    rw [show e.src.toNat = u by omega] at this
    simpa [settledB_iff] using this

/-- The state after `k` supersteps. -/
structure TsInv (es : List (Edge Int)) (n k : Nat) (P : Nat → TsV) (A : Nat → Bool) (s : BitVec 32) : Prop where
  cur : s = BitVec.ofNat 32 (k + 1)
  done : ∀ v, 1 ≤ v → v ≤ n → Settled es (k + 1) v → (P v).deg = some 0 ∧
    ∀ j, LongestIn es v j → (P v).order = BitVec.ofNat 32 j
  todo : ∀ v, 1 ≤ v → v ≤ n → ¬ Settled es (k + 1) v → (P v).order = BitVec.allOnes 32 ∧
    (P v).deg = some (inFrom es (fun u => !settledB es k u) v : Int)
  act : ∀ v, 1 ≤ v → v ≤ n → (A v = true ↔ LongestIn es v k)

theorem TsInv.step {es : List (Edge Int)} {n k : Nat} (hv : ∀ e ∈ es, e.Valid n) (hdeg : ∀ v, inDegree es v ≤ IMAX)
    (hk : k + 1 < UMAX) {P P' : Nat → TsV} {A A' : Nat → Bool} {s : BitVec 32} {c : Bool} (h : TsInv es n k P A s)
    (hs : StepRel (topProg.gp s) (fun v => decide (v.deg = some 0)) (fun msg _ _ => some (if msg then 1 else 0)) false n es
      P A P' A' c) :
    TsInv es n (k + 1) P' A' (s + 1#32) ∧ (c = true ↔ ∀ v, 1 ≤ v → v ≤ n → ¬ LongestIn es v (k + 1)) := by
  obtain ⟨res, r1, r2, r3, r4⟩ := hs
  have hact : ∀ e ∈ es, (A e.src.toNat = true ↔ settledB es (k + 1) e.src.toNat = true ∧ settledB es k e.src.toNat = false) := by
    intro e he
    obtain ⟨a1, a2, _, _⟩ := hv e he
    rw [h.act _ (by omega) (by omega), longestIn_iff, settledB_iff, settledB_false]
  have hsplit : ∀ v, inFrom es (fun u => !settledB es k u) v = inFrom es (fun u => !settledB es (k + 1) u) v + inFrom es A v := by
    intro v
    apply inFrom_split
    intro e he _
    rw [hact e he]
    have hm : settledB es k e.src.toNat = true → settledB es (k + 1) e.src.toNat = true := by
      rw [settledB_iff, settledB_iff]; exact fun h => h.mono (by omega)
    cases h1 : settledB es k e.src.toNat <;> cases h2 : settledB es (k + 1) e.src.toNat <;> simp_all
  -- the three cases of a vertex
  have key : ∀ v, 1 ≤ v → v ≤ n →
      (Settled es (k + 1) v ∧ P' v = P v ∧ gotChanged (topProg.gp s).apply (topProg.gp s).ne (P v) (res v) = false) ∨
      (¬ Settled es (k + 2) v ∧ (P' v).order = (P v).order ∧
        (P' v).deg = some (inFrom es (fun u => !settledB es (k + 1) u) v : Int) ∧
        gotChanged (topProg.gp s).apply (topProg.gp s).ne (P v) (res v) = false) ∨
      (LongestIn es v (k + 1) ∧ P' v = ⟨s, some 0⟩ ∧
        gotChanged (topProg.gp s).apply (topProg.gp s).ne (P v) (res v) = true) := by
    intro v v1 v2
    have e1 := r1 v v1 v2
    have e2 := r2 v v1 v2
    have hlen := outMsgs_length (fun v : TsV => decide (v.deg = some 0)) (fun msg (_ : Int) (_ : TsV) =>
      some (if msg then (1 : Int) else 0)) es P A v
    cases hr : res v with
    | none =>
      have h0 : outMsgs (fun v : TsV => decide (v.deg = some 0)) (fun msg (_ : Int) (_ : TsV) =>
        some (if msg then (1 : Int) else 0)) es P A v = [] := e1.none_iff.mp hr
      rw [h0, List.length_nil] at hlen
      rw [hr] at e2
      by_cases hset : Settled es (k + 1) v
      · exact .inl ⟨hset, e2, rfl⟩
      · right; left
        have hspl := hsplit v
        rw [← hlen, Nat.add_zero] at hspl
        have e2' : P' v = P v := e2
        refine ⟨?_, by rw [e2'], by rw [e2', (h.todo v v1 v2 hset).2, hspl], rfl⟩
        rw [settled_succ_count hv, ← hspl, ← settled_succ_count hv]
        exact hset
    | some x =>
      right
      rw [hr] at e1 e2
      have e1' : Reduces addInt (outMsgs (fun v : TsV => decide (v.deg = some 0)) (fun msg (_ : Int) (_ : TsV) =>
        some (if msg then (1 : Int) else 0)) es P A v) (some x) := e1
      obtain ⟨o1, o2⟩ := e1'.ones (by
        intro u hu
        simp only [outMsgs, List.mem_filterMap] at hu
        obtain ⟨e, he, hu⟩ := hu
        obtain ⟨a1, a2, _, _⟩ := hv e he
        split at hu
        · next hc =>
          injection hu with hu
          rw [← hu]
          have hd := (h.done e.src.toNat (by omega) (by omega)
            (longestIn_iff.mp ((h.act _ (by omega) (by omega)).mp hc.2)).1).1
          simp [hd]
        · cases hu) (by rw [hlen]; exact Nat.le_trans (inFrom_le ..) (hdeg v))
      rw [hlen] at o1 o2
      have hspl := hsplit v
      have hset : ¬ Settled es (k + 1) v := by
        intro hset
        rw [settled_succ_count hv] at hset
        omega
      obtain ⟨t1, t2⟩ := h.todo v v1 v2 hset
      have hbound := Nat.le_trans (inFrom_le es (fun u => !settledB es k u) v) (hdeg v)
      -- what apply computes
      have hap : tsApply s x (P v) = ⟨if inFrom es (fun u => !settledB es (k + 1) u) v = 0 then s else (P v).order,
          some (inFrom es (fun u => !settledB es (k + 1) u) v : Int)⟩ := by
        unfold tsApply
        rw [o1, t2]
        simp only [Option.bind_eq_bind, Option.bind_some]
        rw [if_pos (by omega)]
        have hsub : csub (inFrom es (fun u => !settledB es k u) v : Int) (inFrom es A v : Int) =
            some (inFrom es (fun u => !settledB es (k + 1) u) v : Int) := by
          unfold csub
          rw [show ((inFrom es (fun u => !settledB es k u) v : Int) - (inFrom es A v : Int)) =
            ((inFrom es (fun u => !settledB es (k + 1) u) v : Nat) : Int) by omega]
          exact ck_nat (by omega)
        rw [hsub]
        simp only [Option.bind_some]
        rw [if_pos (by omega)]
        simp
      have e2' : P' v = tsApply s x (P v) := e2
      have hgc : gotChanged (topProg.gp s).apply (topProg.gp s).ne (P v) (some x) =
          decide ((P v).order ≠ (tsApply s x (P v)).order) := rfl
      rw [hgc, e2', hap]
      by_cases h0 : inFrom es (fun u => !settledB es (k + 1) u) v = 0
      · right
        refine ⟨longestIn_iff.mpr ⟨(settled_succ_count hv).mpr h0, hset⟩, ?_, ?_⟩
        · rw [if_pos h0, h0]; rfl
        · simp only [h0, if_true]
          rw [t1, h.cur, decide_eq_true_iff]
          intro hh
          have := congrArg BitVec.toNat hh
          rw [BitVec.toNat_allOnes, BitVec.toNat_ofNat, Nat.mod_eq_of_lt (by unfold UMAX at hk; omega)] at this
          unfold UMAX at hk
          omega
      · left
        refine ⟨fun hh => h0 ((settled_succ_count hv).mp hh), ?_, rfl, ?_⟩
        · rw [if_neg h0]
        · simp [h0]
  refine ⟨⟨?_, ?_, ?_, ?_⟩, ?_⟩
  · rw [h.cur]
    apply BitVec.eq_of_toNat_eq
    simp [BitVec.toNat_add]
  · intro v v1 v2 hset
    rcases key v v1 v2 with ⟨a, b, _⟩ | ⟨a, _⟩ | ⟨a, b, _⟩
    · rw [b]; exact h.done v v1 v2 a
    · exact absurd hset a
    · rw [b]
      refine ⟨rfl, fun j hj => ?_⟩
      rw [hj.unique a, h.cur]
  · intro v v1 v2 hset
    rcases key v v1 v2 with ⟨a, b, _⟩ | ⟨a, b, d, _⟩ | ⟨a, b, _⟩
    · exact absurd (a.mono (by omega)) hset
    · refine ⟨?_, d⟩
      rw [b]
      exact (h.todo v v1 v2 (fun hh => hset (hh.mono (by omega)))).1
    · exact absurd (longestIn_iff.mp a).1 hset
  · intro v v1 v2
    rw [r3 v v1 v2, Bool.false_or]
    rcases key v v1 v2 with ⟨a, _, b⟩ | ⟨a, _, _, b⟩ | ⟨a, _, b⟩
    · rw [b]; simp only [Bool.false_eq_true, false_iff]
      intro hl; exact (longestIn_iff.mp hl).2 a
    · rw [b]; simp only [Bool.false_eq_true, false_iff]
      intro hl; exact a (longestIn_iff.mp hl).1
    · rw [b]; simp [a]
  · rw [r4]
    constructor
    · intro hq v v1 v2 hl
      have := hq v v1 v2
      rcases key v v1 v2 with ⟨a, _, _⟩ | ⟨a, _, _, _⟩ | ⟨_, _, b⟩
      · exact (longestIn_iff.mp hl).2 a
      · exact a (longestIn_iff.mp hl).1
      · rw [this] at b; cases b
    · intro hq v v1 v2
      rcases key v v1 v2 with ⟨_, _, b⟩ | ⟨_, _, _, b⟩ | ⟨a, _, _⟩
      · exact b
      · exact b
      · exact absurd a (hq v v1 v2)

end GraphMat

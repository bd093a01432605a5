import Verif.Model.DeltaStepping
import Verif.Lemmas.Sssp
import Mathlib.Data.List.Perm.Subperm

namespace GraphMat

/-- The distance of a vertex as a number. -/
def dN (P : Nat → DsV) (v : Nat) : Nat := (P v).dist.toNat

theorem dN_le (P : Nat → DsV) (v : Nat) : dN P v ≤ UMAX := by
  have := (P v).dist.isLt
  unfold dN UMAX; omega

theorem dsBucket_spec {δ : Nat} (h1 : 1 ≤ δ) (h2 : δ ≤ IMAX) {d : BitVec 32} (h : d.toNat / δ ≤ IMAX) :
    dsBucket δ d = some ((d.toNat / δ : Nat) : Int) := by
  have hI : IMAX = 2147483647 := rfl
  have hδ : (BitVec.ofInt 32 (δ : Int)).toNat = δ := by
    rw [BitVec.toNat_ofInt]
    have h2' : ((2 ^ 32 : Nat) : Int) = 4294967296 := by decide
    rw [h2', Int.emod_eq_of_lt (by omega) (by omega)]
    omega
  have hne : BitVec.ofInt 32 (δ : Int) ≠ 0#32 := by
    intro h0
    rw [h0] at hδ
    simp at hδ
    omega
  unfold dsBucket
  rw [if_neg hne, BitVec.toInt_eq_toNat_of_lt, BitVec.toNat_udiv, hδ]
  rw [BitVec.toNat_udiv, hδ]
  omega

theorem dsProg_pure (δ : Int) : Program.Pure (dsProg δ) (fun b v => if v.bucket = some b then v.dist else DsV.new.dist)
    (fun _ msg e _ => if msg < DsV.new.dist then msg + BitVec.ofInt 32 e else DsV.new.dist) := by
  intro s
  exact ⟨fun _ _ => rfl, fun _ _ _ _ => rfl, fun _ _ _ _ _ => rfl⟩

/-- The distance of `v` is the length of a walk whose vertices are different and not farther than `v`. -/
def DsChain (es : List (Edge Int)) (src n : Nat) (P : Nat → DsV) (v : Nat) (l : List Nat) : Prop :=
  l.Nodup ∧ (∀ x ∈ l, 1 ≤ x ∧ x ≤ n ∧ dN P x ≤ dN P v) ∧ ∃ k, l.length = k + 1 ∧ WWalk Int.toNat es src v k (dN P v)

/-- What holds throughout; `k` is a number of supersteps. -/
structure DsOK (es : List (Edge Int)) (src n δ : Nat) (k : Nat) (P : Nat → DsV) (A : Nat → Bool) : Prop where
  src0 : dN P src = 0
  bucket : ∀ v, 1 ≤ v → v ≤ n → (P v).bucket = some (if dN P v = UMAX then INT_MAX else ((dN P v / δ : Nat) : Int))
  chain : ∀ v, 1 ≤ v → v ≤ n → dN P v = UMAX ∨ ∃ l, DsChain es src n P v l ∧ (A v = true → k + 1 ≤ l.length)

/-- The assumptions about the input. -/
structure DsInput (es : List (Edge Int)) (src n δ B : Nat) : Prop where
  valid : ∀ e ∈ es, e.Valid n
  no : NoOverflow es src n
  bound : ∀ v k d, k ≤ n → WWalk Int.toNat es src v k d → d / δ < B
  s1 : 1 ≤ src
  s2 : src ≤ n
  d1 : 1 ≤ δ
  d2 : δ ≤ IMAX
  b : B ≤ IMAX

theorem nodup_range_length {l : List Nat} {n : Nat} (h : l.Nodup) (hr : ∀ x ∈ l, 1 ≤ x ∧ x ≤ n) : l.length ≤ n := by
  have := (List.subperm_of_subset h (l₂ := List.range' 1 n) (by
    intro x hx
    rw [List.mem_range'_1]
    have := hr x hx
    omega)).length_le
  rwa [List.length_range'] at this

theorem DsChain.length_le {es : List (Edge Int)} {src n : Nat} {P : Nat → DsV} {v : Nat} {l : List Nat}
    (h : DsChain es src n P v l) : l.length ≤ n :=
  nodup_range_length h.1 (fun x hx => ⟨(h.2.1 x hx).1, (h.2.1 x hx).2.1⟩)

/-- A value that fits is the length of a short walk. -/
theorem DsOK.walk {es : List (Edge Int)} {src n δ k : Nat} {P : Nat → DsV} {A : Nat → Bool}
    (h : DsOK es src n δ k P A) {v : Nat} (v1 : 1 ≤ v) (v2 : v ≤ n) (hf : dN P v ≠ UMAX) :
    ∃ j, j + 1 ≤ n ∧ WWalk Int.toNat es src v j (dN P v) := by
  rcases h.chain v v1 v2 with h | ⟨l, hl, _⟩
  · exact absurd h hf
  · obtain ⟨j, j1, j2⟩ := hl.2.2
    exact ⟨j, by have := hl.length_le; omega, j2⟩

/-- One superstep on some of the edges, when bucket `b` is processed. -/
theorem DsOK.relax {es es' : List (Edge Int)} {src n δ B k b : Nat} (hI : DsInput es src n δ B) (hsub : ∀ e ∈ es', e ∈ es)
    (hb : b < B) {P P' : Nat → DsV} {A A' : Nat → Bool} {c : Bool}
    (h : DsOK es src n δ k P A)
    (hs : StepRel ((dsProg δ).gp (b : Int)) (fun v => if v.bucket = some (b : Int) then v.dist else DsV.new.dist)
      (fun msg e _ => if msg < DsV.new.dist then msg + BitVec.ofInt 32 e else DsV.new.dist) false n es' P A P' A' c) :
    (∀ v, 1 ≤ v → v ≤ n → (P' v = P v ∧ A' v = false) ∨
      (A' v = true ∧ dN P' v < dN P v ∧ (P' v).bucket = dsBucket δ (P' v).dist ∧
        ∃ e ∈ es', e.dst = (v : Int) ∧ A e.src.toNat = true ∧ dN P e.src.toNat ≠ UMAX ∧ dN P e.src.toNat / δ = b ∧
          dN P' v = dN P e.src.toNat + e.val.toNat)) ∧
    (∀ e ∈ es', A e.src.toNat = true → dN P e.src.toNat ≠ UMAX → dN P e.src.toNat / δ = b →
      dN P' e.dst.toNat ≤ dN P e.src.toNat + e.val.toNat) ∧
    (c = true ↔ ∀ v, 1 ≤ v → v ≤ n → A' v = false) := by
  obtain ⟨res, r1, r2, r3, r4⟩ := hs
  have hmax : DsV.new.dist.toNat = UMAX := rfl
  -- the message on an edge
  have hmsg : ∀ e ∈ es',
      (dN P e.src.toNat ≠ UMAX → dN P e.src.toNat / δ = b →
        (if (if (P e.src.toNat).bucket = some (b : Int) then (P e.src.toNat).dist else DsV.new.dist) < DsV.new.dist then
          (if (P e.src.toNat).bucket = some (b : Int) then (P e.src.toNat).dist else DsV.new.dist) + BitVec.ofInt 32 e.val
          else DsV.new.dist).toNat = dN P e.src.toNat + e.val.toNat) ∧
      (¬ (dN P e.src.toNat ≠ UMAX ∧ dN P e.src.toNat / δ = b) →
        (if (if (P e.src.toNat).bucket = some (b : Int) then (P e.src.toNat).dist else DsV.new.dist) < DsV.new.dist then
          (if (P e.src.toNat).bucket = some (b : Int) then (P e.src.toNat).dist else DsV.new.dist) + BitVec.ofInt 32 e.val
          else DsV.new.dist).toNat = UMAX) := by
    intro e he
    obtain ⟨a1, a2, a3, a4⟩ := hI.valid e (hsub e he)
    have hbk := h.bucket e.src.toNat (by omega) (by omega)
    refine ⟨?_, ?_⟩
    · intro hf hq
      rw [if_neg hf, hq] at hbk
      rw [if_pos hbk]
      have hlt : (P e.src.toNat).dist < DsV.new.dist := by
        rw [BitVec.lt_def, hmax]
        have := dN_le P e.src.toNat
        unfold dN at hf this
        omega
      rw [if_pos hlt]
      obtain ⟨j, j1, j2⟩ := h.walk (by omega) (by omega) hf
      have hw := j2.step e (hsub e he) (by omega) (v := e.dst.toNat) (by omega)
      exact add_ofInt_toNat (hI.no.nonneg e (hsub e he)) (hI.no.bound _ _ _ (by omega) hw)
    · intro hq
      have hbn : (P e.src.toNat).bucket ≠ some (b : Int) := by
        rw [hbk]
        intro hc
        injection hc with hc
        have hB := hI.b
        have hIM : INT_MAX = (IMAX : Int) := rfl
        by_cases hf : dN P e.src.toNat = UMAX
        · rw [if_pos hf, hIM] at hc
          have : IMAX = b := by exact_mod_cast hc
          omega
        · rw [if_neg hf] at hc
          exact hq ⟨hf, by exact_mod_cast hc⟩
      rw [if_neg hbn, if_neg (by rw [BitVec.lt_def]; omega)]
      exact hmax
  generalize hM : (fun e : Edge Int => if (if (P e.src.toNat).bucket = some (b : Int) then (P e.src.toNat).dist else DsV.new.dist)
      < DsV.new.dist then
        (if (P e.src.toNat).bucket = some (b : Int) then (P e.src.toNat).dist else DsV.new.dist) + BitVec.ofInt 32 e.val
        else DsV.new.dist) = M
  have hmsg1 : ∀ e ∈ es', dN P e.src.toNat ≠ UMAX → dN P e.src.toNat / δ = b →
      (M e).toNat = dN P e.src.toNat + e.val.toNat := by
    intro e he; rw [← hM]; exact (hmsg e he).1
  have hmsg2 : ∀ e ∈ es', ¬ (dN P e.src.toNat ≠ UMAX ∧ dN P e.src.toNat / δ = b) → (M e).toNat = UMAX := by
    intro e he; rw [← hM]; exact (hmsg e he).2
  generalize hL : (fun d => inbox EdgeDir.out (fun v : DsV => if v.bucket = some (b : Int) then v.dist else DsV.new.dist)
      (fun msg (e : Int) _ => if msg < DsV.new.dist then msg + BitVec.ofInt 32 e else DsV.new.dist) es' P A d) = L
  have hinbox : ∀ d, ∀ r, r ∈ L d ↔ ∃ e ∈ es', e.dst = (d : Int) ∧ A e.src.toNat = true ∧ r = M e := by
    intro d r
    rw [← hL, ← hM]
    simp only [inbox, outMsgs, List.mem_filterMap]
    constructor
    · rintro ⟨e, he, hr⟩
      by_cases hc : e.dst = (d : Int) ∧ A e.src.toNat = true
      · rw [if_pos hc] at hr
        injection hr with hr
        exact ⟨e, he, hc.1, hc.2, hr.symm⟩
      · rw [if_neg hc] at hr; cases hr
    · rintro ⟨e, he, h1, h2, h3⟩
      exact ⟨e, he, by rw [if_pos ⟨h1, h2⟩, h3]⟩
  have key : ∀ v, 1 ≤ v → v ≤ n →
      (res v = none ∧ L v = [] ∧ P' v = P v ∧ A' v = false) ∨
      (∃ x, res v = some x ∧ x ∈ L v ∧ (∀ y ∈ L v, x.toNat ≤ y.toNat) ∧
        P' v = (if x < (P v).dist then ⟨x, dsBucket δ x⟩ else P v) ∧
        A' v = decide (x < (P v).dist)) := by
    intro v v1 v2
    have e1 := r1 v v1 v2
    have e2 := r2 v v1 v2
    have e3 := r3 v v1 v2
    cases hr : res v with
    | none =>
      left; rw [hr] at e2 e3
      refine ⟨rfl, ?_, e2, e3⟩
      rw [← hL]
      exact e1.none_iff.mp hr
    | some x =>
      right
      rw [hr] at e1 e2 e3
      have := Reduces.umin e1
      have hP' : P' v = (if x < (P v).dist then ⟨x, dsBucket δ x⟩ else P v) := e2
      refine ⟨x, rfl, by rw [← hL]; exact this.1, by rw [← hL]; exact this.2, hP', ?_⟩
      rw [e3]
      simp only [gotChanged, Bool.false_or]
      show decide ((P v).dist ≠ (if x < (P v).dist then (⟨x, dsBucket δ x⟩ : DsV) else P v).dist) = _
      by_cases hx : x < (P v).dist
      · rw [if_pos hx, decide_eq_true hx]
        refine decide_eq_true ?_
        intro he
        rw [he] at hx
        exact absurd hx (by rw [BitVec.lt_def]; exact Nat.lt_irrefl _)
      · rw [if_neg hx, decide_eq_false hx]
        exact decide_eq_false (fun hn => hn rfl)
  refine ⟨?_, ?_, ?_⟩
  · intro v v1 v2
    rcases key v v1 v2 with ⟨_, _, h1, h2⟩ | ⟨x, _, hx1, hx2, h3, h4⟩
    · exact .inl ⟨h1, h2⟩
    · by_cases hx : x < (P v).dist
      · right
        rw [if_pos hx] at h3
        rw [decide_eq_true hx] at h4
        obtain ⟨e, he, hd, ha, hxe⟩ := (hinbox v x).mp hx1
        have hxl : x.toNat < dN P v := BitVec.lt_def.mp hx
        have hle := dN_le P v
        have hq : dN P e.src.toNat ≠ UMAX ∧ dN P e.src.toNat / δ = b := by
          apply Classical.byContradiction
          intro hq
          have := hmsg2 e he hq
          rw [← hxe] at this
          omega
        have hm := hmsg1 e he hq.1 hq.2
        have hP'x : dN P' v = x.toNat := by unfold dN; rw [h3]
        refine ⟨h4, by omega, by rw [h3], e, he, hd, ha, hq.1, hq.2, ?_⟩
        rw [hP'x, hxe, hm]
      · left
        rw [if_neg hx] at h3
        rw [decide_eq_false hx] at h4
        exact ⟨h3, h4⟩
  · intro e he ha hf hq
    obtain ⟨a1, a2, a3, a4⟩ := hI.valid e (hsub e he)
    have hin := (hinbox e.dst.toNat (M e)).mpr ⟨e, he, by omega, ha, rfl⟩
    rcases key e.dst.toNat (by omega) (by omega) with ⟨_, h0, _, _⟩ | ⟨x, _, _, hmin, h4, _⟩
    · rw [h0] at hin; cases hin
    · have hx := hmin _ hin
      rw [hmsg1 e he hf hq] at hx
      unfold dN at *
      rw [h4]
      by_cases hlt : x < (P e.dst.toNat).dist
      · rw [if_pos hlt]; exact hx
      · rw [if_neg hlt]; rw [BitVec.lt_def] at hlt; omega
  · rw [r4]
    have hg : ∀ v, 1 ≤ v → v ≤ n → (gotChanged ((dsProg δ).gp (b : Int)).apply ((dsProg δ).gp (b : Int)).ne (P v) (res v) = A' v) := by
      intro v v1 v2
      have := r3 v v1 v2
      rw [Bool.false_or] at this
      exact this.symm
    constructor
    · intro hq v v1 v2; rw [← hg v v1 v2]; exact hq v v1 v2
    · intro hq v v1 v2; rw [hg v v1 v2]; exact hq v v1 v2

/-- The effect of one superstep on the edges `es'`, as `DsOK.relax` describes it. -/
structure DsStep (es' : List (Edge Int)) (n δ b : Nat) (P : Nat → DsV) (A : Nat → Bool) (P' : Nat → DsV) (A' : Nat → Bool) :
    Prop where
  upd : ∀ v, 1 ≤ v → v ≤ n → (P' v = P v ∧ A' v = false) ∨
      (A' v = true ∧ dN P' v < dN P v ∧ (P' v).bucket = dsBucket δ (P' v).dist ∧
        ∃ e ∈ es', e.dst = (v : Int) ∧ A e.src.toNat = true ∧ dN P e.src.toNat ≠ UMAX ∧ dN P e.src.toNat / δ = b ∧
          dN P' v = dN P e.src.toNat + e.val.toNat)
  rel : ∀ e ∈ es', A e.src.toNat = true → dN P e.src.toNat ≠ UMAX → dN P e.src.toNat / δ = b →
      dN P' e.dst.toNat ≤ dN P e.src.toNat + e.val.toNat

theorem DsStep.mono {es' : List (Edge Int)} {n δ b : Nat} {P P' : Nat → DsV} {A A' : Nat → Bool}
    (h : DsStep es' n δ b P A P' A') {v : Nat} (v1 : 1 ≤ v) (v2 : v ≤ n) : dN P' v ≤ dN P v := by
  rcases h.upd v v1 v2 with ⟨h, _⟩ | ⟨_, h, _⟩
  · unfold dN; rw [h]
  · omega

theorem DsOK.step {es es' : List (Edge Int)} {src n δ B k b : Nat} (hI : DsInput es src n δ B) (hsub : ∀ e ∈ es', e ∈ es)
    {P P' : Nat → DsV} {A A' : Nat → Bool} (h : DsOK es src n δ k P A) (hs : DsStep es' n δ b P A P' A') :
    DsOK es src n δ (k + 1) P' A' := by
  have hchain : ∀ v, 1 ≤ v → v ≤ n → dN P' v = UMAX ∨ ∃ l, DsChain es src n P' v l ∧ (A' v = true → k + 1 + 1 ≤ l.length) := by
    intro v v1 v2
    rcases hs.upd v v1 v2 with ⟨h1, h2⟩ | ⟨h1, h2, h3, e, he, hd, ha, hf, hq, hv⟩
    · have hvv : dN P' v = dN P v := by unfold dN; rw [h1]
      rcases h.chain v v1 v2 with h3 | ⟨l, hl, _⟩
      · left; omega
      · right
        refine ⟨l, ⟨hl.1, ?_, ?_⟩, by rw [h2]; intro h; cases h⟩
        · intro x hx
          obtain ⟨x1, x2, x3⟩ := hl.2.1 x hx
          have := hs.mono x1 x2
          exact ⟨x1, x2, by omega⟩
        · rw [hvv]; exact hl.2.2
    · right
      obtain ⟨a1, a2, a3, a4⟩ := hI.valid e (hsub e he)
      rcases h.chain e.src.toNat (by omega) (by omega) with h4 | ⟨l, hl, hlen⟩
      · exact absurd h4 hf
      · have hnotin : v ∉ l := by
          intro hin
          have := (hl.2.1 v hin).2.2
          omega
        refine ⟨v :: l, ⟨List.nodup_cons.mpr ⟨hnotin, hl.1⟩, ?_, ?_⟩, ?_⟩
        · intro x hx
          rcases List.mem_cons.mp hx with rfl | hx
          · exact ⟨v1, v2, Nat.le_refl _⟩
          · obtain ⟨x1, x2, x3⟩ := hl.2.1 x hx
            have := hs.mono x1 x2
            exact ⟨x1, x2, by omega⟩
        · obtain ⟨j, j1, j2⟩ := hl.2.2
          refine ⟨j + 1, by rw [List.length_cons, j1], ?_⟩
          rw [hv]
          exact j2.step e (hsub e he) (by omega) hd
        · intro _
          have := hlen ha
          rw [List.length_cons]; omega
  refine ⟨?_, ?_, hchain⟩
  · have := hs.mono hI.s1 hI.s2
    have := h.src0
    omega
  · intro v v1 v2
    rcases hs.upd v v1 v2 with ⟨h1, _⟩ | ⟨_, h2, h3, _⟩
    · have hvv : dN P' v = dN P v := by unfold dN; rw [h1]
      rw [hvv, h1]; exact h.bucket v v1 v2
    · have hle := dN_le P v
      rcases hchain v v1 v2 with hx | ⟨l, hl, _⟩
      · omega
      · obtain ⟨j, j1, j2⟩ := hl.2.2
        have hlen := hl.length_le
        have hb := hI.bound _ _ _ (by omega) j2
        have hB := hI.b
        rw [h3, if_neg (by omega)]
        exact dsBucket_spec hI.d1 hI.d2 (by show dN P' v / δ ≤ IMAX; omega)

/-- Nothing is known about the active vertices. -/
theorem DsOK.forget {es : List (Edge Int)} {src n δ k : Nat} {P : Nat → DsV} {A A' : Nat → Bool}
    (h : DsOK es src n δ k P A) : DsOK es src n δ 0 P A' := by
  refine ⟨h.src0, h.bucket, ?_⟩
  intro v v1 v2
  rcases h.chain v v1 v2 with h | ⟨l, hl, _⟩
  · exact .inl h
  · obtain ⟨j, j1, _⟩ := hl.2.2
    exact .inr ⟨l, hl, fun _ => by omega⟩

/-- Edges from vertices in buckets before `b` have been relaxed. -/
def DsSettled (es : List (Edge Int)) (δ b : Nat) (P : Nat → DsV) : Prop :=
  ∀ e ∈ es, dN P e.src.toNat ≠ UMAX → dN P e.src.toNat / δ < b → dN P e.dst.toNat ≤ dN P e.src.toNat + e.val.toNat

/-- A new value found while bucket `b` is processed lies in that bucket or a later one. -/
theorem DsStep.bucket_ge {es' : List (Edge Int)} {n δ b : Nat} {P P' : Nat → DsV} {A A' : Nat → Bool}
    (h : DsStep es' n δ b P A P' A') {w : Nat} (hw : ∀ e ∈ es', w ≤ e.val.toNat) {v : Nat} (v1 : 1 ≤ v) (v2 : v ≤ n)
    (hlt : dN P' v < b * δ + w) : P' v = P v := by
  rcases h.upd v v1 v2 with ⟨h, _⟩ | ⟨_, _, _, e, he, _, _, _, hq, hv⟩
  · exact h
  · have := hw e he
    have h1 : b * δ ≤ dN P e.src.toNat := by
      rw [← hq]; exact Nat.div_mul_le_self _ _
    omega

theorem DsStep.settled {es es' : List (Edge Int)} {src n δ B b : Nat} (hI : DsInput es src n δ B)
    {P P' : Nat → DsV} {A A' : Nat → Bool} (h : DsStep es' n δ b P A P' A') (hS : DsSettled es δ b P) :
    DsSettled es δ b P' := by
  intro e he hf hq
  obtain ⟨a1, a2, a3, a4⟩ := hI.valid e he
  have hd1 := hI.d1
  have hlt : dN P' e.src.toNat < b * δ := (Nat.div_lt_iff_lt_mul hI.d1).mp hq
  have hsame := h.bucket_ge (w := 0) (fun _ _ => Nat.zero_le _) (v := e.src.toNat) (by omega) (by omega) (by omega)
  have hs' : dN P' e.src.toNat = dN P e.src.toNat := by unfold dN; rw [hsame]
  rw [hs'] at hf hq ⊢
  have := hS e he hf hq
  have hm := h.mono (v := e.dst.toNat) (by omega) (by omega)
  omega

/-- While the light edges are relaxed. -/
structure DsLight (es : List (Edge Int)) (src n δ b : Nat) (k : Nat) (P : Nat → DsV) (A : Nat → Bool) : Prop where
  ok : DsOK es src n δ k P A
  settled : DsSettled es δ b P
  light : ∀ e ∈ es, dsLight δ e = true → dN P e.src.toNat ≠ UMAX → dN P e.src.toNat / δ = b →
    A e.src.toNat = true ∨ dN P e.dst.toNat ≤ dN P e.src.toNat + e.val.toNat

theorem DsLight.step {es : List (Edge Int)} {src n δ B b k : Nat} (hI : DsInput es src n δ B)
    {P P' : Nat → DsV} {A A' : Nat → Bool} (h : DsLight es src n δ b k P A)
    (hs : DsStep (es.filter (dsLight δ)) n δ b P A P' A') : DsLight es src n δ b (k + 1) P' A' := by
  refine ⟨h.ok.step hI (fun e he => (List.mem_filter.mp he).1) hs, hs.settled hI h.settled, ?_⟩
  intro e he hl hf hq
  obtain ⟨a1, a2, a3, a4⟩ := hI.valid e he
  rcases hs.upd e.src.toNat (by omega) (by omega) with ⟨h1, _⟩ | ⟨h1, _⟩
  · right
    have hs' : dN P' e.src.toNat = dN P e.src.toNat := by unfold dN; rw [h1]
    rw [hs'] at hf hq ⊢
    rcases h.light e he hl hf hq with ha | hr
    · exact hs.rel e (List.mem_filter.mpr ⟨he, hl⟩) ha hf hq
    · have hm := hs.mono (v := e.dst.toNat) (by omega) (by omega)
      omega
  · exact .inl h1

/-- After the light edges. -/
structure DsMid (es : List (Edge Int)) (src n δ b : Nat) (P : Nat → DsV) : Prop where
  ok : DsOK es src n δ 0 P (fun _ => true)
  settled : DsSettled es δ b P
  light : ∀ e ∈ es, dsLight δ e = true → dN P e.src.toNat ≠ UMAX → dN P e.src.toNat / δ = b →
    dN P e.dst.toNat ≤ dN P e.src.toNat + e.val.toNat

theorem DsLight.done {es : List (Edge Int)} {src n δ B b k : Nat} (hI : DsInput es src n δ B)
    {P : Nat → DsV} {A : Nat → Bool} (h : DsLight es src n δ b k P A) (hA : ∀ v, 1 ≤ v → v ≤ n → A v = false) :
    DsMid es src n δ b P := by
  refine ⟨h.ok.forget, h.settled, ?_⟩
  intro e he hl hf hq
  obtain ⟨a1, a2, a3, a4⟩ := hI.valid e he
  rcases h.light e he hl hf hq with ha | hr
  · rw [hA _ (by omega) (by omega)] at ha; cases ha
  · exact hr

/-- Between two rounds. -/
structure DsInv (es : List (Edge Int)) (src n δ b : Nat) (P : Nat → DsV) : Prop where
  ok : DsOK es src n δ 0 P (fun _ => true)
  settled : DsSettled es δ b P

/-- Relaxing the heavy edges once. -/
theorem DsMid.heavy {es : List (Edge Int)} {src n δ B b : Nat} (hI : DsInput es src n δ B)
    {P P' : Nat → DsV} {A A' : Nat → Bool} (h : DsMid es src n δ b P) (hA : ∀ v, 1 ≤ v → v ≤ n → A v = true)
    (hs : DsStep (es.filter (dsHeavy δ)) n δ b P A P' A') : DsInv es src n δ (b + 1) P' := by
  refine ⟨DsOK.forget ((h.ok.forget (A' := A)).step hI (fun e he => (List.mem_filter.mp he).1) hs), ?_⟩
  intro e he hf hq
  obtain ⟨a1, a2, a3, a4⟩ := hI.valid e he
  have hlt : dN P' e.src.toNat < (b + 1) * δ := (Nat.div_lt_iff_lt_mul hI.d1).mp hq
  rw [Nat.succ_mul] at hlt
  have hsame := hs.bucket_ge (w := δ) (by
    intro x hx
    have := (List.mem_filter.mp hx).2
    unfold dsHeavy at this
    rw [decide_eq_true_iff] at this
    omega) (v := e.src.toNat) (by omega) (by omega) hlt
  have hs' : dN P' e.src.toNat = dN P e.src.toNat := by unfold dN; rw [hsame]
  rw [hs'] at hf hq ⊢
  have hm := hs.mono (v := e.dst.toNat) (by omega) (by omega)
  by_cases hqb : dN P e.src.toNat / δ = b
  · by_cases hl : dsLight δ e = true
    · have := h.light e he hl hf hqb
      omega
    · refine hs.rel e (List.mem_filter.mpr ⟨he, ?_⟩) (hA _ (by omega) (by omega)) hf hqb
      unfold dsLight at hl
      unfold dsHeavy
      rw [decide_eq_true_iff] at hl ⊢
      omega
  · have := h.settled e he hf (by omega)
    omega

/-- When no vertex is left in later buckets the distances are right. -/
theorem DsInv.correct {es : List (Edge Int)} {src n δ B b : Nat} (hI : DsInput es src n δ B)
    {P : Nat → DsV} (h : DsInv es src n δ b P)
    (hend : ∀ v, 1 ≤ v → v ≤ n → dN P v ≠ UMAX → dN P v / δ < b) {v : Nat} (v1 : 1 ≤ v) (v2 : v ≤ n) :
    dN P v ≠ UMAX ∧ IsDist Int.toNat es src v (dN P v) ∨ dN P v = UMAX ∧ ¬ Reachable es src v := by
  have hall : ∀ v j d, WWalk Int.toNat es src v j d → dN P v ≠ UMAX ∧ dN P v ≤ d := by
    intro v j d hw
    induction hw with
    | refl =>
      have := h.ok.src0
      unfold UMAX; omega
    | step e hw he hes hed ih =>
      rename_i u v j d
      obtain ⟨u1, u2⟩ := hw.range hI.valid hI.s1 hI.s2
      have hu1 : e.src.toNat = u := by omega
      have hv1 : e.dst.toNat = v := by omega
      have hr := h.settled e he (by rw [hu1]; exact ih.1) (by rw [hu1]; exact hend u u1 u2 ih.1)
      rw [hu1, hv1] at hr
      refine ⟨?_, by omega⟩
      obtain ⟨i, i1, i2⟩ := h.ok.walk u1 u2 ih.1
      have := hI.no.bound _ _ _ (by omega) (i2.step e he hes hed)
      omega
  by_cases hr : Reachable es src v
  · left
    obtain ⟨k', hk'⟩ := hr
    obtain ⟨d', hd'⟩ := hk'.wwalk Int.toNat
    have hne := (hall v _ _ hd').1
    obtain ⟨j, _, j2⟩ := h.ok.walk v1 v2 hne
    exact ⟨hne, ⟨j, j2⟩, fun k d' hw => (hall v k d' hw).2⟩
  · right
    refine ⟨?_, hr⟩
    apply Classical.byContradiction
    intro hne
    obtain ⟨j, _, j2⟩ := h.ok.walk v1 v2 hne
    exact hr ⟨j, j2.walk⟩

end GraphMat

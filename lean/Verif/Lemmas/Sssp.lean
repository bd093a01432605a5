import Verif.Model.Sssp
import Verif.Lemmas.AppRun
import Verif.Lemmas.Paths

namespace GraphMat

/-- `(a<=b)?(a):(b)` on unsigned ints. -/
def umin (a b : BitVec 32) : BitVec 32 := if a ≤ b then a else b

theorem umin_toNat (a b : BitVec 32) : (umin a b).toNat = min a.toNat b.toNat := by
  unfold umin
  by_cases h : a ≤ b
  · rw [if_pos h]; rw [BitVec.le_def] at h; omega
  · rw [if_neg h]; rw [BitVec.le_def] at h; omega

theorem umin_mem (a b : BitVec 32) : umin a b = a ∨ umin a b = b := by
  unfold umin; by_cases h : a ≤ b
  · left; rw [if_pos h]
  · right; rw [if_neg h]

theorem RTree.eval_umin (t : RTree (BitVec 32)) :
    t.eval umin ∈ t.leaves ∧ ∀ y ∈ t.leaves, (t.eval umin).toNat ≤ y.toNat := by
  induction t with
  | leaf u => simp [RTree.leaves, RTree.eval]
  | node l r ihl ihr =>
    simp only [RTree.leaves, RTree.eval, List.mem_append]
    refine ⟨?_, ?_⟩
    · rcases umin_mem (l.eval umin) (r.eval umin) with h | h <;> rw [h]
      · exact .inl ihl.1
      · exact .inr ihr.1
    · intro y hy
      rw [umin_toNat]
      rcases hy with hy | hy
      · have := ihl.2 y hy; omega
      · have := ihr.2 y hy; omega

theorem Reduces.umin {l : List (BitVec 32)} {x : BitVec 32} (h : Reduces umin l (some x)) :
    x ∈ l ∧ ∀ y ∈ l, x.toNat ≤ y.toNat := by
  rcases h with ⟨_, h⟩ | ⟨t, h1, h2⟩
  · cases h
  · injection h2 with h2
    have := t.eval_umin
    rw [h2]
    exact ⟨h1.mem_iff.mp this.1, fun y hy => this.2 y (h1.mem_iff.mpr hy)⟩

/-- The state after `k` supersteps (for vertices given by their distances `D`). -/
structure SsspInv (es : List (Edge Int)) (src n k : Nat) (D : Nat → BitVec 32) (A : Nat → Bool) : Prop where
  sound : ∀ v, 1 ≤ v → v ≤ n → (D v).toNat = UMAX ∨ ∃ j, j ≤ k ∧ WWalk Int.toNat es src v j (D v).toNat
  complete : ∀ v j d, j ≤ k → WWalk Int.toNat es src v j d → (D v).toNat ≤ d
  act : ∀ v, 1 ≤ v → v ≤ n → A v = true → (D v).toNat ≠ UMAX
  relaxed : ∀ e ∈ es, A e.src.toNat = true ∨ (D e.src.toNat).toNat = UMAX ∨
    (D e.dst.toNat).toNat ≤ (D e.src.toNat).toNat + e.val.toNat

theorem WWalk.le_mul {es : List (Edge Int)} {s v k d W : Nat} (hW : ∀ e ∈ es, e.val.toNat ≤ W)
    (h : WWalk Int.toNat es s v k d) : d ≤ k * W := by
  induction h with
  | refl => omega
  | step e _ he _ _ ih => have := hW e he; rw [Nat.succ_mul]; omega

/-- A bound on the edge lengths is enough. -/
theorem NoOverflow.of_bound {es : List (Edge Int)} {src n W : Nat} (h0 : ∀ e ∈ es, 0 ≤ e.val)
    (hW : ∀ e ∈ es, e.val.toNat ≤ W) (hn : n * W < UMAX) : NoOverflow es src n := by
  refine ⟨h0, ?_⟩
  intro v k d hk hw
  have h1 := hw.le_mul hW
  have h2 := Nat.mul_le_mul_right W hk
  omega

example : NoOverflow [⟨1, 2, 5⟩, ⟨2, 3, 7⟩, ⟨3, 1, 0⟩] 1 3 :=
  NoOverflow.of_bound (W := 7) (by decide) (by decide) (by decide)

theorem ssspProg_pure : Program.Pure ssspProg (fun _ v => v.dist) (fun _ msg e _ => msg + BitVec.ofInt 32 e) := by
  intro s
  exact ⟨fun _ _ => rfl, fun _ _ _ _ => rfl, fun _ _ _ _ _ => rfl⟩

theorem add_ofInt_toNat {a : BitVec 32} {e : Int} (h0 : 0 ≤ e) (h : a.toNat + e.toNat < UMAX) :
    (a + BitVec.ofInt 32 e).toNat = a.toNat + e.toNat := by
  have : (BitVec.ofInt 32 e).toNat = e.toNat := by
    rw [BitVec.toNat_ofInt]
    unfold UMAX at h
    have h2 : ((2 ^ 32 : Nat) : Int) = 4294967296 := by decide
    rw [h2, Int.emod_eq_of_lt h0 (by omega)]
  rw [BitVec.toNat_add, this, Nat.mod_eq_of_lt]
  unfold UMAX at h
  omega

/-- What arrives at a vertex, and what it becomes. -/
theorem SsspInv.relax {es : List (Edge Int)} {src n k : Nat} (hv : ∀ e ∈ es, e.Valid n) (hno : NoOverflow es src n)
    (hk : k < n) {P P' : Nat → SsspV} {A A' : Nat → Bool} {c : Bool}
    (h : SsspInv es src n k (fun v => (P v).dist) A)
    (hs : StepRel (ssspProg.gp ()) (fun v => v.dist) (fun msg e _ => msg + BitVec.ofInt 32 e) false n es P A P' A' c) :
    (∀ v, 1 ≤ v → v ≤ n → (P' v).dist.toNat ≤ (P v).dist.toNat ∧
      ((P' v).dist = (P v).dist ∨ ∃ j, j ≤ k + 1 ∧ WWalk Int.toNat es src v j (P' v).dist.toNat) ∧
      (A' v = true ↔ (P' v).dist ≠ (P v).dist)) ∧
    (∀ e ∈ es, A e.src.toNat = true → (P' e.dst.toNat).dist.toNat ≤ (P e.src.toNat).dist.toNat + e.val.toNat) ∧
    (c = true ↔ ∀ v, 1 ≤ v → v ≤ n → (P' v).dist = (P v).dist) := by
  obtain ⟨res, r1, r2, r3, r4⟩ := hs
  have hmsg : ∀ e ∈ es, A e.src.toNat = true →
      ((P e.src.toNat).dist + BitVec.ofInt 32 e.val).toNat = (P e.src.toNat).dist.toNat + e.val.toNat ∧
      ∃ j, j ≤ k + 1 ∧ WWalk Int.toNat es src e.dst.toNat j ((P e.src.toNat).dist.toNat + e.val.toNat) := by
    intro e he ha
    obtain ⟨a1, a2, a3, a4⟩ := hv e he
    rcases h.sound e.src.toNat (by omega) (by omega) with hx | ⟨j, j1, j2⟩
    · exact absurd hx (h.act _ (by omega) (by omega) ha)
    · have hw : WWalk Int.toNat es src e.dst.toNat (j + 1) ((P e.src.toNat).dist.toNat + e.val.toNat) :=
        .step e j2 he (by omega) (by omega)
      exact ⟨add_ofInt_toNat (hno.nonneg e he) (hno.bound _ _ _ (by omega) hw), j + 1, by omega, hw⟩
  have hinbox : ∀ d, 1 ≤ d → d ≤ n → ∀ r, r ∈ inbox EdgeDir.out (fun v : SsspV => v.dist)
      (fun msg (e : Int) _ => msg + BitVec.ofInt 32 e) es P A d ↔
      ∃ e ∈ es, e.dst = (d : Int) ∧ A e.src.toNat = true ∧ r = (P e.src.toNat).dist + BitVec.ofInt 32 e.val := by
    intro d d1 d2 r
    simp only [inbox, outMsgs, List.mem_filterMap]
    constructor
    · rintro ⟨e, he, hr⟩
      by_cases hc : e.dst = (d : Int) ∧ A e.src.toNat = true
      · rw [if_pos hc] at hr
        injection hr with hr
        exact ⟨e, he, hc.1, hc.2, hr.symm⟩
      · rw [if_neg hc] at hr; cases hr
    · rintro ⟨e, he, h1, h2, h3⟩
      exact ⟨e, he, by rw [if_pos ⟨h1, h2⟩, h3]⟩
  have key : ∀ v, 1 ≤ v → v ≤ n →
      (res v = none ∧ P' v = P v ∧ A' v = false) ∨
      (∃ x, res v = some x ∧ x ∈ inbox EdgeDir.out (fun v : SsspV => v.dist)
        (fun msg (e : Int) _ => msg + BitVec.ofInt 32 e) es P A v ∧
        (∀ y ∈ inbox EdgeDir.out (fun v : SsspV => v.dist) (fun msg (e : Int) _ => msg + BitVec.ofInt 32 e) es P A v,
          x.toNat ≤ y.toNat) ∧
        (P' v).dist = (if x < (P v).dist then x else (P v).dist) ∧
        A' v = decide ((P v).dist ≠ if x < (P v).dist then x else (P v).dist)) := by
    intro v v1 v2
    have e1 := r1 v v1 v2
    have e2 := r2 v v1 v2
    have e3 := r3 v v1 v2
    cases hr : res v with
    | none => left; rw [hr] at e2 e3; exact ⟨rfl, e2, e3⟩
    | some x =>
      right
      rw [hr] at e1 e2 e3
      have := Reduces.umin e1
      refine ⟨x, rfl, this.1, this.2, by rw [e2]; rfl, ?_⟩
      rw [e3]
      simp only [gotChanged, Bool.false_or]
      rfl
  have hact : ∀ v, 1 ≤ v → v ≤ n → (A' v = true ↔ (P' v).dist ≠ (P v).dist) := by
    intro v v1 v2
    rcases key v v1 v2 with ⟨_, h1, h2⟩ | ⟨x, _, _, _, h4, h5⟩
    · rw [h2, h1]; simp
    · rw [h5, h4, decide_eq_true_iff]; exact ne_comm
  refine ⟨?_, ?_, ?_⟩
  · intro v v1 v2
    refine ⟨?_, ?_, hact v v1 v2⟩
    · rcases key v v1 v2 with ⟨_, h1, _⟩ | ⟨x, _, _, _, h4, _⟩
      · rw [h1]
      · rw [h4]
        by_cases hx : x < (P v).dist
        · rw [if_pos hx]; exact Nat.le_of_lt (BitVec.lt_def.mp hx)
        · rw [if_neg hx]
    · rcases key v v1 v2 with ⟨_, h1, _⟩ | ⟨x, _, hm, _, h4, _⟩
      · left; rw [h1]
      · rw [h4]
        by_cases hx : x < (P v).dist
        · right
          rw [if_pos hx]
          obtain ⟨e, he, hd, ha, rfl⟩ := (hinbox v v1 v2 x).mp hm
          obtain ⟨m1, j, j1, j2⟩ := hmsg e he ha
          rw [m1]
          rw [hd, Int.toNat_natCast] at j2
          exact ⟨j, j1, j2⟩
        · left; rw [if_neg hx]
  · intro e he ha
    obtain ⟨a1, a2, a3, a4⟩ := hv e he
    have hin := (hinbox e.dst.toNat (by omega) (by omega) _).mpr ⟨e, he, by omega, ha, rfl⟩
    rcases key e.dst.toNat (by omega) (by omega) with ⟨h0, _, _⟩ | ⟨x, _, _, hmin, h4, _⟩
    · have := (r1 e.dst.toNat (by omega) (by omega)).none_iff.mp h0
      have h' : inbox EdgeDir.out (fun v : SsspV => v.dist) (fun msg (e : Int) _ => msg + BitVec.ofInt 32 e) es P A
        e.dst.toNat = [] := this
      rw [h'] at hin; cases hin
    · have hx := hmin _ hin
      rw [(hmsg e he ha).1] at hx
      rw [h4]
      by_cases hlt : x < (P e.dst.toNat).dist
      · rw [if_pos hlt]; exact hx
      · rw [if_neg hlt]; rw [BitVec.lt_def] at hlt; omega
  · rw [r4]
    have hg : ∀ v, 1 ≤ v → v ≤ n → (gotChanged (ssspProg.gp ()).apply (ssspProg.gp ()).ne (P v) (res v) = false ↔
        (P' v).dist = (P v).dist) := by
      intro v v1 v2
      have := r3 v v1 v2
      rw [Bool.false_or] at this
      rw [← this, ← Bool.not_eq_true, hact v v1 v2]
      exact Decidable.not_not
    constructor
    · intro hq v v1 v2; exact (hg v v1 v2).mp (hq v v1 v2)
    · intro hq v v1 v2; exact (hg v v1 v2).mpr (hq v v1 v2)

theorem SsspInv.step {es : List (Edge Int)} {src n k : Nat} (hv : ∀ e ∈ es, e.Valid n) (hno : NoOverflow es src n)
    (hs1 : 1 ≤ src) (hs2 : src ≤ n) (hk : k < n) {P P' : Nat → SsspV} {A A' : Nat → Bool} {c : Bool}
    (h : SsspInv es src n k (fun v => (P v).dist) A)
    (hs : StepRel (ssspProg.gp ()) (fun v => v.dist) (fun msg e _ => msg + BitVec.ofInt 32 e) false n es P A P' A' c) :
    SsspInv es src n (k + 1) (fun v => (P' v).dist) A' ∧
      (c = true → ∀ v, 1 ≤ v → v ≤ n → (P' v).dist.toNat ≠ UMAX ∧ IsDist Int.toNat es src v (P' v).dist.toNat ∨
        (P' v).dist.toNat = UMAX ∧ ¬ Reachable es src v) ∧
      (c = false → k + 1 < n) := by
  obtain ⟨m1, m2, m3⟩ := SsspInv.relax hv hno hk h hs
  have hinv : SsspInv es src n (k + 1) (fun v => (P' v).dist) A' := by
    refine ⟨?_, ?_, ?_, ?_⟩
    · intro v v1 v2
      rcases (m1 v v1 v2).2.1 with h1 | h1
      · rw [h1]
        rcases h.sound v v1 v2 with h2 | ⟨j, j1, j2⟩
        · exact .inl h2
        · exact .inr ⟨j, by omega, j2⟩
      · exact .inr h1
    · intro v j d hj hw
      obtain ⟨v1, v2⟩ := hw.range hv hs1 hs2
      have hle := (m1 v v1 v2).1
      cases hw with
      | refl => have := h.complete _ _ _ (Nat.zero_le _) .refl; omega
      | step e hw he hes hed =>
        rename_i u j d
        have hu := h.complete _ _ _ (by omega) hw
        obtain ⟨u1, u2⟩ := hw.range hv hs1 hs2
        have hu1 : e.src.toNat = u := by omega
        have hv1 : e.dst.toNat = v := by omega
        have hb := hno.bound _ _ _ (by omega) hw
        rcases h.relaxed e he with h1 | h1 | h1
        · have := m2 e he h1
          rw [hu1, hv1] at this
          omega
        · rw [hu1] at h1; omega
        · rw [hu1, hv1] at h1; omega
    · intro v v1 v2 ha
      have hne := (m1 v v1 v2).2.2.mp ha
      have hle := (m1 v v1 v2).1
      have : (P' v).dist.toNat ≠ (P v).dist.toNat := fun he => hne (BitVec.eq_of_toNat_eq he)
      have := (P v).dist.isLt
      unfold UMAX
      omega
    · intro e he
      obtain ⟨a1, a2, a3, a4⟩ := hv e he
      by_cases hc : (P' e.src.toNat).dist = (P e.src.toNat).dist
      · right
        have hle := (m1 e.dst.toNat (by omega) (by omega)).1
        rw [hc]
        rcases h.relaxed e he with h1 | h1 | h1
        · right; exact m2 e he h1
        · left; exact h1
        · right; omega
      · left
        exact (m1 e.src.toNat (by omega) (by omega)).2.2.mpr hc
  refine ⟨hinv, ?_, ?_⟩
  · intro hc
    have hq := m3.mp hc
    have hall : ∀ v j d, WWalk Int.toNat es src v j d → (P' v).dist.toNat ≠ UMAX ∧ (P' v).dist.toNat ≤ d := by
      intro v j d hw
      induction hw with
      | refl =>
        have := hinv.complete _ _ _ (Nat.zero_le _) .refl
        unfold UMAX; omega
      | step e hw he hes hed ih =>
        rename_i u v j d
        obtain ⟨u1, u2⟩ := hw.range hv hs1 hs2
        have hu1 : e.src.toNat = u := by omega
        have hv1 : e.dst.toNat = v := by omega
        obtain ⟨b1, b2, b3, b4⟩ := hv e he
        rcases hinv.relaxed e he with h1 | h1 | h1
        · exact absurd (hq e.src.toNat (by omega) (by omega)) ((m1 e.src.toNat (by omega) (by omega)).2.2.mp h1)
        · rw [hu1] at h1; exact absurd h1 ih.1
        · rw [hu1, hv1] at h1
          refine ⟨?_, by omega⟩
          rw [hq u u1 u2] at h1 ih
          rcases h.sound u u1 u2 with h2 | ⟨i, i1, i2⟩
          · exact absurd h2 ih.1
          · have := hno.bound _ _ _ (by omega) (i2.step e he hes hed)
            omega
    intro v v1 v2
    by_cases hr : Reachable es src v
    · left
      obtain ⟨k', hk'⟩ := hr
      obtain ⟨d', hd'⟩ := hk'.wwalk Int.toNat
      refine ⟨(hall v _ _ hd').1, ?_, fun k d' hw => (hall v k d' hw).2⟩
      rcases hinv.sound v v1 v2 with h2 | ⟨j, _, j2⟩
      · exact absurd h2 (hall v _ _ hd').1
      · exact ⟨j, j2⟩
    · right
      refine ⟨?_, hr⟩
      rcases hinv.sound v v1 v2 with h2 | ⟨j, _, j2⟩
      · exact h2
      · exact absurd ⟨j, j2.walk⟩ hr
  · intro hc
    apply Classical.byContradiction
    intro hn
    have : ∀ v, 1 ≤ v → v ≤ n → (P' v).dist = (P v).dist := by
      intro v v1 v2
      have hle := (m1 v v1 v2).1
      rcases (m1 v v1 v2).2.1 with h1 | ⟨j, j1, j2⟩
      · exact h1
      · obtain ⟨i, d', i1, i2, i3, i4⟩ := j2.short hv hs1 hs2
        have := h.complete v i d' (by omega) i4
        exact BitVec.eq_of_toNat_eq (by omega)
    rw [m3.mpr this] at hc
    cases hc

end GraphMat

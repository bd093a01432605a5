import Verif.Model.Kernel
import Verif.Lemmas.Schedule
import Verif.Lemmas.IdMap

/-! When the multiplication kernels are defined. -/
namespace GraphMat

variable {E T U V σ : Type}

theorem foldlM_keeps {κ : Type} {I : σ → Prop} {g : σ → κ → Option σ} (l : List κ)
    (h : ∀ x ∈ l, ∀ st, I st → ∃ st', g st x = some st' ∧ I st') (st : σ) (hst : I st) :
    ∃ st', l.foldlM g st = some st' ∧ I st' := by
  induction l generalizing st with
  | nil => exact ⟨st, rfl, hst⟩
  | cons x l ih =>
    obtain ⟨s1, e1, h1⟩ := h x List.mem_cons_self st hst
    obtain ⟨s2, e2, h2⟩ := ih (fun y hy => h y (List.mem_cons_of_mem _ hy)) s1 h1
    refine ⟨s2, ?_, h2⟩
    rw [List.foldlM_cons, e1]
    exact e2

theorem Tile.Rep.visits_some {t : Tile E} {P : Nat → List (Col E)} (h : t.Rep P) {xs : Arr T × Arr Word}
    (hx : POk t.n xs) {p : Nat} (hp : p < t.np) : ∃ l, t.visits xs.1 xs.2 p = some l := by
  have e1 := t.walkPart_visits xs.1 xs.2 (fun _ _ _ _ _ (u : Unit) => some u) p ()
  rw [h.walkPart hx (F := fun _ _ _ (u : Unit) => some u) (fun _ _ _ _ _ _ => rfl) hp] at e1
  cases hl : t.visits xs.1 xs.2 p with
  | some l => exact ⟨l, rfl⟩
  | none =>
    obtain ⟨st', e2, _⟩ := foldlM_keeps (I := fun _ => True) (flat (P p))
      (g := fun (st : Unit) (x : Nat × Nat × E) => match pview t.n xs x.2.1 with
        | some _ => some st
        | none => some st) (by
          intro x _ st _
          exact ⟨st, by split <;> rfl, trivial⟩) () trivial
    rw [hl] at e1
    cases e1.symm.trans e2

/-- An invariant kept by every step on a row of the tile is kept by the loop nest, which is defined. -/
theorem Tile.Rep.walk_keeps {t : Tile E} {P : Nat → List (Col E)} (h : t.Rep P) {xs : Arr T × Arr Word}
    (hx : POk t.n xs) {f : Nat → Nat → Nat → E → T → σ → Option σ} {I : σ → Prop}
    (hf : ∀ p nz row a x st, row < t.m → I st → ∃ st', f p nz row a x st = some st' ∧ I st') (st : σ) (hst : I st) :
    ∃ st', t.walk xs.1 xs.2 f st = some st' ∧ I st' := by
  unfold Tile.walk
  rw [forLoop_range]
  refine foldlM_keeps (I := I) _ ?_ st hst
  intro p hp st hst
  have hp' := List.mem_range.mp hp
  obtain ⟨l, hl⟩ := h.visits_some hx hp'
  rw [t.walkPart_visits, hl, Option.bind_some]
  refine foldlM_keeps (I := I) l ?_ st hst
  intro v hv st hst
  have hr := (h.visits_rows hx hp' hl v hv).2
  have hm : t.rp.get (p + 1) ≤ t.m := by
    have key : ∀ k, p + 1 + k ≤ t.np → t.rp.get (p + 1) ≤ t.rp.get (p + 1 + k) := by
      intro k
      induction k with
      | zero => intro _; exact Nat.le_refl _
      | succ k ih =>
        intro hk
        exact Nat.le_trans (ih (by omega)) (h.mono (p + 1 + k) (by omega))
    have e := key (t.np - (p + 1)) (by omega)
    rw [show p + 1 + (t.np - (p + 1)) = t.np from by omega, h.final (by omega)] at e
    exact e
  exact hf p v.1 v.2.1 v.2.2.1 v.2.2.2 st (Nat.lt_of_lt_of_le hr hm) hst

theorem Tile.Rep.spmspv_some {t : Tile E} {P : Nat → List (Col E)} (h : t.Rep P) {x : Arr T × Arr Word} (hx : POk t.n x)
    (tmp : Nat → Nat → U) (mul : Nat → Nat → E → T → U → U) (add : U → U → U) {y : Arr U × Arr Word} (hy : POk t.m y) :
    ∃ y', t.spmspv tmp mul add x.1 x.2 y = some y' ∧ POk t.m y' :=
  h.walk_keeps hx (I := POk t.m) (by
    intro p nz row a x st hr hst
    obtain ⟨st', e1, e2, _⟩ := mulAdd_spec (mul := mul p nz) (add := add) (old := tmp p nz) (a := a) (x := x) rfl hr hst
    exact ⟨st', e1, e2⟩) y hy

theorem mulAdd3_keeps {cap : Nat} {mul : E → T → V → U → U} {add : U → U → U} {old : U} {vs : Arr V × Arr Word}
    {row : Nat} {a : E} {x : T} {st : Arr U × Arr Word} (hvs : POk cap vs) (hv : bitAt vs.2 row = true)
    (hr : row < cap) (h : POk cap st) :
    ∃ st', mulAdd3 mul add old vs.1 vs.2 row a x st = some st' ∧ POk cap st' := by
  have hw : row / 32 < st.2.size := by rw [h.bits]; exact word_lt hr
  have hwv : row / 32 < vs.2.size := by rw [hvs.bits]; exact word_lt hr
  by_cases hbit : bitAt st.2 row = true
  · obtain ⟨st', h1, h2, _⟩ := mulAdd3_spec (mul := fun _ _ _ _ => mul a x (vs.1.get row) old) (add := add) (old := old)
      (a := a) (x := x) (v := vs.1.get row) (fun _ => rfl) hvs (by unfold pview; rw [if_pos ⟨hr, hv⟩]) hr h
    refine ⟨st', ?_, h2⟩
    rw [← h1]
    unfold mulAdd3
    simp only [Option.bind_eq_bind]
    rw [getBitvector_eq hwv, Option.bind_some, getBitvector_eq hw, Option.bind_some,
      Arr.read_some (by rw [hvs.value]; exact hr), Option.bind_some, hbit, hv,
      Arr.read_some (by rw [h.value]; exact hr), Option.bind_some, Option.bind_some, Option.bind_some, Option.bind_some]
    rfl
  · obtain ⟨st', h1, h2, _⟩ := mulAdd3_spec (mul := fun _ _ _ _ => mul a x (vs.1.get row) (st.1.get row)) (add := add)
      (old := old) (a := a) (x := x) (v := vs.1.get row) (fun _ => rfl) hvs (by unfold pview; rw [if_pos ⟨hr, hv⟩]) hr h
    refine ⟨st', ?_, h2⟩
    rw [← h1]
    unfold mulAdd3
    simp only [Option.bind_eq_bind]
    rw [getBitvector_eq hwv, Option.bind_some, getBitvector_eq hw, Option.bind_some,
      Arr.read_some (by rw [hvs.value]; exact hr), Option.bind_some, Bool.not_eq_true _ |>.mp hbit, hv,
      Arr.read_some (by rw [h.value]; exact hr), Option.bind_some, Option.bind_some, Option.bind_some, Option.bind_some]
    rfl

theorem Tile.Rep.spmspv3_some {t : Tile E} {P : Nat → List (Col E)} (h : t.Rep P) {x : Arr T × Arr Word} (hx : POk t.n x)
    (tmp : Nat → Nat → U) (mul : E → T → V → U → U) (add : U → U → U) {vs : Arr V × Arr Word} (hvs : POk t.m vs)
    (hall : ∀ i, i < t.m → bitAt vs.2 i = true) {y : Arr U × Arr Word} (hy : POk t.m y) :
    ∃ y', t.spmspv3 tmp mul add x.1 x.2 vs.1 vs.2 y = some y' ∧ POk t.m y' :=
  h.walk_keeps hx (I := POk t.m) (by
    intro p nz row a x st hr hst
    exact mulAdd3_keeps hvs (hall row hr) hr hst) y hy

theorem forLoop_unit {lo hi : Nat} {body : Nat → Option Unit} :
    forLoop lo hi () (fun i _ => body i) = some () ↔ ∀ i, lo ≤ i → i < hi → body i = some () := by
  unfold forLoop
  have key : ∀ l : List Nat, l.foldlM (fun (_ : Unit) i => body i) () = some () ↔ ∀ i ∈ l, body i = some () := by
    intro l
    induction l with
    | nil => simp
    | cons i l ih =>
      rw [List.foldlM_cons]
      cases hb : body i with
      | none => simp [hb]
      | some u =>
        cases u
        rw [List.forall_mem_cons, hb, ← ih]
        simp
  rw [key]
  constructor
  · intro h i h1 h2
    exact h i (by rw [List.mem_range'_1]; omega)
  · intro h i hi
    rw [List.mem_range'_1] at hi
    exact h i (by omega) (by omega)

/-- The reads behind the prefetches are in bounds exactly if each column with a message is followed by at least four
more slots of `col_indices`. -/
theorem Tile.Rep.prefetch_iff {t : Tile E} {P : Nat → List (Col E)} (h : t.Rep P) {x : Arr T × Arr Word} (hx : POk t.n x) :
    t.prefetchReads x.2 = some () ↔
      ∀ p, p < t.np → ∀ j, t.cs.get p + j + 1 < t.cs.get (p + 1) → bitAt x.2 (t.colIdx.get (t.cs.get p + j)) = true →
        t.cs.get p + j + 4 < t.colIdx.size := by
  unfold Tile.prefetchReads
  rw [forLoop_unit]
  have hcs : ∀ p, p < t.np → t.cs.get p = coff P p ∧ t.cs.get (p + 1) = coff P (p + 1) := by
    intro p hp
    obtain ⟨h1, h2⟩ := h.cs p hp
    rw [Arr.read_eq_some] at h1 h2
    exact ⟨h1.2, h2.2⟩
  have hpart : ∀ p, p < t.np → (t.prefetchPart x.2 p = some () ↔
      ∀ j, t.cs.get p + j + 1 < t.cs.get (p + 1) → bitAt x.2 (t.colIdx.get (t.cs.get p + j)) = true →
        t.cs.get p + j + 4 < t.colIdx.size) := by
    intro p hp
    unfold Tile.prefetchPart
    simp only [Option.bind_eq_bind]
    rw [(h.cs p hp).1, Option.bind_some, (h.cs p hp).2, Option.bind_some, forLoop_unit, (hcs p hp).1, (hcs p hp).2]
    have hlen : coff P (p + 1) = coff P p + ((P p).length + 1) := rfl
    constructor
    · intro hj j hlt hbit
      have e := hj j (by omega) (by omega)
      have hjl : j < (P p).length := by omega
      have hcol : (P p)[j].1 < t.n := h.cols p hp _ (List.getElem_mem hjl)
      have hc := h.col p hp j hjl
      rw [hc, Option.bind_some, getBitvector_eq (by rw [hx.bits]; exact word_lt hcol), Option.bind_some] at e
      rw [(Arr.read_eq_some.mp hc).2] at hbit
      rw [if_pos hbit] at e
      by_contra hge
      have hn : t.colIdx.read (coff P p + j + 4) = none := by
        unfold Arr.read
        rw [if_neg hge]
      rw [hn] at e
      cases e
    · intro hj j _ hlt
      have hjl : j < (P p).length := by omega
      have hcol : (P p)[j].1 < t.n := h.cols p hp _ (List.getElem_mem hjl)
      have hc := h.col p hp j hjl
      rw [hc, Option.bind_some, getBitvector_eq (by rw [hx.bits]; exact word_lt hcol), Option.bind_some]
      by_cases hbit : bitAt x.2 (P p)[j].1 = true
      · have e := hj j (by omega) (by rw [(Arr.read_eq_some.mp hc).2]; exact hbit)
        rw [if_pos hbit, Arr.read_some e, Option.bind_some]
      · rw [if_neg hbit]
  constructor
  · intro hh p hp
    exact (hpart p hp).mp (hh p (by omega) hp)
  · intro hh p _ hp
    exact (hpart p hp).mpr (hh p hp)

theorem Tile.deadStore_iff (t : Tile E) : (∃ k, t.deadStore = some k) ↔ t.m * t.n ≤ IMAX := by
  unfold Tile.deadStore cmul
  rw [show ((t.m : Int) * (t.n : Int)) = ((t.m * t.n : Nat) : Int) from by push_cast; rfl]
  unfold ck
  have e1 : INT_MAX = (IMAX : Int) := rfl
  have e2 : INT_MIN = -(IMAX : Int) - 1 := rfl
  rw [e1, e2]
  constructor
  · rintro ⟨k, hk⟩
    split at hk
    · next hh => omega
    · cases hk
  · intro hh
    exact ⟨_, if_pos (by omega)⟩

end GraphMat

import Verif.Lemmas.Load
import Verif.Model.SpMSpV

namespace GraphMat

variable {α σ ι S κ : Type}

theorem foldlM_filter {l : List κ} {F : σ → κ → Option σ} {p : κ → Bool} (s : σ) :
    (l.filter p).foldlM F s = l.foldlM (fun s x => if p x = true then F s x else some s) s := by
  induction l generalizing s with
  | nil => rfl
  | cons a l ih =>
    rw [List.foldlM_cons]
    by_cases h : p a = true
    · rw [List.filter_cons_of_pos h, List.foldlM_cons, if_pos h]
      cases F s a with
      | none => rfl
      | some s' => exact ih s'
    · rw [List.filter_cons_of_neg h, if_neg h, ih]; rfl

/-- A sequence of operations, each changing one cell of a store in a way that depends only on that
cell and on cells no operation changes: in the end each cell has gone through its own operations. -/
theorem phase [DecidableEq ι] {ok : σ → Prop} {get : σ → ι → S} {mod : σ → ι → (S → Option S) → Option σ}
    {valid : ι → Prop}
    (hmod : ∀ d i f s', ok d → valid i → f (get d i) = some s' →
      ∃ d', mod d i f = some d' ∧ ok d' ∧ ∀ i', get d' i' = if i' = i then s' else get d i')
    {t : κ → ι} {F : σ → κ → Option σ} {g : κ → S → Option S} {d0 : σ} {R : ι → Prop} (L : List κ)
    (hL : ∀ k ∈ L, valid (t k) ∧ ¬ R (t k))
    (hF : ∀ k ∈ L, ∀ d, ok d → (∀ i, R i → get d i = get d0 i) → F d k = mod d (t k) (g k))
    (h0 : ok d0) {C : ι → S}
    (hC : ∀ i, (L.filter (fun k => decide (t k = i))).foldlM (fun s k => g k s) (get d0 i) = some (C i)) :
    ∃ d', L.foldlM F d0 = some d' ∧ ok d' ∧ ∀ i, get d' i = C i := by
  suffices h : ∀ (L : List κ) (d : σ), (∀ k ∈ L, valid (t k) ∧ ¬ R (t k)) →
      (∀ k ∈ L, ∀ d, ok d → (∀ i, R i → get d i = get d0 i) → F d k = mod d (t k) (g k)) →
      ok d → (∀ i, R i → get d i = get d0 i) → ∀ C : ι → S,
      (∀ i, (L.filter (fun k => decide (t k = i))).foldlM (fun s k => g k s) (get d i) = some (C i)) →
      ∃ d', L.foldlM F d = some d' ∧ ok d' ∧ ∀ i, get d' i = C i from
    h L d0 hL hF h0 (fun _ _ => rfl) C hC
  intro L
  induction L with
  | nil =>
    intro d _ _ hok _ C hC
    refine ⟨d, rfl, hok, ?_⟩
    intro i
    have := hC i
    simpa using this
  | cons k L ih =>
    intro d hL hF hok hR C hC
    have hk := hL k List.mem_cons_self
    have hck := hC (t k)
    rw [List.filter_cons_of_pos (by simp), List.foldlM_cons] at hck
    cases hg : g k (get d (t k)) with
    | none => rw [hg] at hck; cases hck
    | some s' =>
      rw [hg] at hck
      obtain ⟨d1, m1, m2, m3⟩ := hmod d (t k) (g k) s' hok hk.1 hg
      obtain ⟨d', e1, e2, e3⟩ := ih d1 (fun x hx => hL x (List.mem_cons_of_mem _ hx))
        (fun x hx => hF x (List.mem_cons_of_mem _ hx)) m2 (by
          intro i hi
          rw [m3, if_neg (by intro e; subst e; exact hk.2 hi)]; exact hR i hi) C (by
          intro i
          rw [m3]
          by_cases e : i = t k
          · subst e; rw [if_pos rfl]; exact hck
          · rw [if_neg e]
            have := hC i
            rw [List.filter_cons_of_neg (by simp; exact fun h => e h.symm)] at this
            exact this)
      refine ⟨d', ?_, e2, e3⟩
      rw [List.foldlM_cons, hF k List.mem_cons_self d hok hR, m1]
      exact e1

/-- Operations on different cells. -/
theorem filter_single [DecidableEq ι] {t : κ → ι} {L : List κ} (hn : (L.map t).Nodup) {k : κ} (hk : k ∈ L) :
    L.filter (fun x => decide (t x = t k)) = [k] := by
  induction L with
  | nil => cases hk
  | cons a L ih =>
    rw [List.map_cons, List.nodup_cons] at hn
    rcases List.mem_cons.mp hk with rfl | hk'
    · rw [List.filter_cons_of_pos (by simp), List.filter_eq_nil_iff.mpr]
      intro x hx h
      exact hn.1 (List.mem_map.mpr ⟨x, hx, by simpa using h⟩)
    · rw [List.filter_cons_of_neg, ih hn.2 hk']
      intro h
      exact hn.1 (List.mem_map.mpr ⟨k, hk', by simpa using (Eq.symm (by simpa using h))⟩)

theorem filter_none [DecidableEq ι] {t : κ → ι} {L : List κ} {i : ι} (h : i ∉ L.map t) :
    L.filter (fun x => decide (t x = i)) = [] := by
  rw [List.filter_eq_nil_iff]
  intro x hx e
  exact h (List.mem_map.mpr ⟨x, hx, by simpa using e⟩)

/-! ### Distributed vectors as stores of cells -/

/-- The copy of segment `c.2` on rank `c.1`. -/
def DVec.cell (d : DVec α) (c : Nat × Nat) : Segment α := (d.get c.1).segs.get c.2

/-- The dimensions of a distributed vector. -/
structure DVec.Shape (n nseg nrank : Nat) (d : DVec α) : Prop where
  size : d.size = nrank
  rank : ∀ r, r < nrank → (d.get r).n = n ∧ (d.get r).nseg = nseg ∧ (d.get r).nrank = nrank ∧
    (d.get r).myrank = r ∧ (d.get r).segs.size = nseg

theorem DVec.WF.shape {n nseg nrank : Nat} {d : DVec α} (h : d.WF n nseg nrank) : d.Shape n nseg nrank :=
  ⟨h.size, fun r hr => ⟨(h.rank r hr).hn, (h.rank r hr).hseg, (h.rank r hr).hrank, (h.rank r hr).hme, (h.rank r hr).size⟩⟩

theorem DVec.Shape.wf {n nseg nrank : Nat} {d : DVec α} (h : d.Shape n nseg nrank)
    (hc : ∀ r p, r < nrank → p < nseg → (d.cell (r, p)).WF ∧
      (d.cell (r, p)).capacity = bnd n nseg (p + 1) - bnd n nseg p) : d.WF n nseg nrank :=
  ⟨h.size, fun r hr =>
    have e := h.rank r hr
    ⟨e.1, e.2.1, e.2.2.1, e.2.2.2.1, e.2.2.2.2, fun p hp => (hc r p hr hp).1, fun p hp => (hc r p hr hp).2⟩⟩

theorem DVec.seg_spec {n nseg nrank : Nat} {d : DVec α} (h : d.Shape n nseg nrank) {r p : Nat} (hr : r < nrank)
    (hp : p < nseg) : d.seg r p = some (d.cell (r, p)) := by
  unfold DVec.seg
  rw [Arr.read_some (by rw [h.size]; exact hr)]
  show (d.get r).segs.read p = _
  rw [Arr.read_some (by rw [(h.rank r hr).2.2.2.2]; exact hp)]; rfl

theorem DVec.modSeg_spec {n nseg nrank : Nat} (d : DVec α) (c : Nat × Nat) (f : Segment α → Option (Segment α))
    (s' : Segment α) (h : d.Shape n nseg nrank) (hc : c.1 < nrank ∧ c.2 < nseg) (hf : f (d.cell c) = some s') :
    ∃ d' : DVec α, d.modSeg c.1 c.2 f = some d' ∧ d'.Shape n nseg nrank ∧
      ∀ c', d'.cell c' = if c' = c then s' else d.cell c' := by
  have hsz := (h.rank c.1 hc.1).2.2.2.2
  unfold DVec.modSeg SpVec.modifySeg
  rw [Arr.read_some (by rw [h.size]; exact hc.1)]
  simp only [Option.bind_eq_bind, Option.bind_some]
  rw [Arr.read_some (by rw [hsz]; exact hc.2)]
  simp only [Option.bind_some]
  rw [show f ((d.get c.1).segs.get c.2) = some s' from hf, Option.bind_some,
    Arr.write_some (by rw [hsz]; exact hc.2), Option.bind_some, Option.bind_some,
    Arr.write_some (by rw [h.size]; exact hc.1)]
  refine ⟨_, rfl, ⟨h.size, ?_⟩, ?_⟩
  · intro r hr
    rw [Arr.upd_get]
    by_cases e : r = c.1
    · subst e; rw [if_pos rfl]; exact h.rank _ hr
    · rw [if_neg e]; exact h.rank r hr
  · intro c'
    unfold DVec.cell
    rw [Arr.upd_get]
    by_cases e : c'.1 = c.1
    · rw [if_pos e]
      simp only
      rw [Arr.upd_get]
      by_cases e2 : c'.2 = c.2
      · rw [if_pos e2, if_pos (Prod.ext e e2)]
      · rw [if_neg e2, if_neg (by intro h; exact e2 (h ▸ rfl)), e]
    · rw [if_neg e, if_neg (by intro h; exact e (h ▸ rfl))]

/-- `phase` for distributed vectors. -/
theorem DVec.phase {n nseg nrank : Nat} {t : κ → Nat × Nat} {F : DVec α → κ → Option (DVec α)}
    {g : κ → Segment α → Option (Segment α)} {d0 : DVec α} {R : Nat × Nat → Prop} (L : List κ)
    (hL : ∀ k ∈ L, ((t k).1 < nrank ∧ (t k).2 < nseg) ∧ ¬ R (t k))
    (hF : ∀ k ∈ L, ∀ d : DVec α, d.Shape n nseg nrank → (∀ c, R c → d.cell c = d0.cell c) →
      F d k = d.modSeg (t k).1 (t k).2 (g k))
    (h0 : d0.Shape n nseg nrank) {C : Nat × Nat → Segment α}
    (hC : ∀ c, (L.filter (fun k => decide (t k = c))).foldlM (fun s k => g k s) (d0.cell c) = some (C c)) :
    ∃ d' : DVec α, L.foldlM F d0 = some d' ∧ d'.Shape n nseg nrank ∧ ∀ c, d'.cell c = C c :=
  GraphMat.phase (ok := fun d : DVec α => d.Shape n nseg nrank) (get := DVec.cell)
    (mod := fun d c f => d.modSeg c.1 c.2 f) (valid := fun c => c.1 < nrank ∧ c.2 < nseg)
    (fun d c f s' hok hv hf => DVec.modSeg_spec d c f s' hok hv hf) L hL hF h0 hC

/-! ### One rank -/

/-- The dimensions of the local part of a vector. -/
structure SpVec.Shape (n nseg nrank me : Nat) (v : SpVec α) : Prop where
  hn : v.n = n
  hseg : v.nseg = nseg
  hrank : v.nrank = nrank
  hme : v.myrank = me
  size : v.segs.size = nseg

theorem SpVec.WF.shape {n nseg nrank me : Nat} {v : SpVec α} (h : v.WF n nseg nrank me) : v.Shape n nseg nrank me :=
  ⟨h.hn, h.hseg, h.hrank, h.hme, h.size⟩

theorem SpVec.modifySeg_shape {n nseg nrank me : Nat} (v : SpVec α) (p : Nat) (f : Segment α → Option (Segment α))
    (s' : Segment α) (h : v.Shape n nseg nrank me) (hp : p < nseg) (hf : f (v.segs.get p) = some s') :
    ∃ v' : SpVec α, v.modifySeg p f = some v' ∧ v'.Shape n nseg nrank me ∧
      ∀ q, v'.segs.get q = if q = p then s' else v.segs.get q := by
  unfold SpVec.modifySeg
  rw [Arr.read_some (by rw [h.size]; exact hp)]
  simp only [Option.bind_eq_bind, Option.bind_some]
  rw [hf, Option.bind_some, Arr.write_some (by rw [h.size]; exact hp)]
  exact ⟨_, rfl, ⟨h.hn, h.hseg, h.hrank, h.hme, h.size⟩, fun q => Arr.upd_get _ _ _ _⟩

/-- `phase` for the local part of a vector. -/
theorem SpVec.phase {n nseg nrank me : Nat} {t : κ → Nat} {F : SpVec α → κ → Option (SpVec α)}
    {g : κ → Segment α → Option (Segment α)} {v0 : SpVec α} (L : List κ)
    (hL : ∀ k ∈ L, t k < nseg)
    (hF : ∀ k ∈ L, ∀ v : SpVec α, v.Shape n nseg nrank me → F v k = v.modifySeg (t k) (g k))
    (h0 : v0.Shape n nseg nrank me) {C : Nat → Segment α}
    (hC : ∀ p, (L.filter (fun k => decide (t k = p))).foldlM (fun s k => g k s) (v0.segs.get p) = some (C p)) :
    ∃ v' : SpVec α, L.foldlM F v0 = some v' ∧ v'.Shape n nseg nrank me ∧ ∀ p, v'.segs.get p = C p :=
  GraphMat.phase (ok := fun v : SpVec α => v.Shape n nseg nrank me) (get := fun v p => v.segs.get p)
    (mod := fun v p f => v.modifySeg p f) (valid := fun p => p < nseg) (R := fun _ => False)
    (fun d c f s' hok hv hf => SpVec.modifySeg_shape d c f s' hok hv hf) L (fun k hk => ⟨hL k hk, fun h => h⟩)
    (fun k hk d hd _ => hF k hk d hd) h0 hC

theorem filter_range_eq {k p : Nat} : (List.range k).filter (fun j => decide (j = p)) = if p < k then [p] else [] := by
  induction k with
  | zero => rfl
  | succ k ih =>
    rw [List.range_succ, List.filter_append, ih]
    by_cases h : p < k
    · rw [if_pos h, if_pos (by omega), List.filter_cons_of_neg (by simp; omega)]; rfl
    · rw [if_neg h]
      by_cases h2 : k = p
      · subst h2; simp
      · rw [List.filter_cons_of_neg (by simpa using h2), if_neg (by omega)]; rfl

/-- Every rank goes through all segments and applies to each an operation of its own. -/
theorem DVec.forSegs_spec {n nseg nrank : Nat} {d : DVec α} (h : d.Shape n nseg nrank)
    {B : Nat → Nat → SpVec α → Option (SpVec α)} {g : Nat → Nat → Segment α → Option (Segment α)}
    (hB : ∀ r, r < nrank → ∀ p, p < nseg → ∀ v : SpVec α, v.Shape n nseg nrank r → B r p v = v.modifySeg p (g r p))
    {C : Nat × Nat → Segment α}
    (hC : ∀ r p, r < nrank → p < nseg → g r p (d.cell (r, p)) = some (C (r, p))) :
    ∃ d' : DVec α, eachRank d (fun r v => forLoop 0 nseg v (B r)) = some d' ∧ d'.Shape n nseg nrank ∧
      ∀ r p, r < nrank → p < nseg → d'.cell (r, p) = C (r, p) := by
  obtain ⟨d', a1, a2, a3⟩ := eachRank_spec (d := d) (f := fun r v => forLoop 0 nseg v (B r))
    (P := fun r v' => v'.Shape n nseg nrank r ∧ ∀ p, p < nseg → v'.segs.get p = C (r, p)) (by
      intro r hr
      rw [h.size] at hr
      have e := h.rank r hr
      rw [forLoop_range]
      obtain ⟨v', b1, b2, b3⟩ := SpVec.phase (n := n) (nseg := nseg) (nrank := nrank) (me := r) (t := fun p : Nat => p)
        (F := fun v p => B r p v) (g := g r) (v0 := d.get r) (List.range nseg)
        (fun p hp => List.mem_range.mp hp) (fun p hp v hv => hB r hr p (List.mem_range.mp hp) v hv)
        ⟨e.1, e.2.1, e.2.2.1, e.2.2.2.1, e.2.2.2.2⟩
        (C := fun p => if p < nseg then C (r, p) else d.cell (r, p)) (by
          intro p
          rw [filter_range_eq]
          by_cases hp : p < nseg
          · rw [if_pos hp, if_pos hp, List.foldlM_cons]
            show Option.bind (g r p (d.cell (r, p))) _ = _
            rw [hC r p hr hp]; rfl
          · rw [if_neg hp, if_neg hp]; rfl)
      refine ⟨v', b1, b2, ?_⟩
      intro p hp
      rw [b3, if_pos hp])
  rw [h.size] at a2 a3
  refine ⟨d', a1, ⟨a2, fun r hr => ?_⟩, fun r p hr hp => (a3 r hr).2.2 p hp⟩
  have e := (a3 r hr).2.1
  exact ⟨e.hn, e.hseg, e.hrank, e.hme, e.size⟩

theorem SpVec.modifySeg_id {v : SpVec α} {p : Nat} (h : p < v.segs.size) :
    v.modifySeg p some = some v := by
  unfold SpVec.modifySeg
  rw [Arr.read_some h]
  simp only [Option.bind_eq_bind, Option.bind_some]
  rw [Arr.write_some h, Option.bind_some]
  congr 1
  cases v with
  | mk n nseg nrank me segs =>
    simp only [SpVec.mk.injEq, true_and]
    cases segs with
    | mk sz get =>
      unfold Arr.upd
      simp only [Arr.mk.injEq, true_and]
      funext j
      by_cases e : j = p
      · subst e; simp
      · simp [e]

end GraphMat

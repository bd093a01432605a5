import Verif.Lemmas.Exchange

namespace GraphMat

variable {α κ E : Type}

theorem DVec.freeNonOwned_spec {n nseg nrank : Nat} {d : DVec α} (h : d.WF n nseg nrank) (hr : 0 < nrank) :
    ∃ d' : DVec α, d.freeNonOwned nseg = some d' ∧ d'.WF n nseg nrank ∧
      ∀ r p, r < nrank → p < nseg →
        d'.cell (r, p) = if p % nrank = r then d.cell (r, p) else (d.cell (r, p)).setUninitialized := by
  obtain ⟨d', a1, a2, a3⟩ := DVec.forSegs_spec h.shape
    (B := fun _ j v => (v.owns j).bind fun own =>
      if own = true then some v else v.modifySeg j (fun s => some s.setUninitialized))
    (g := fun r p s => if p % nrank = r then some s else some s.setUninitialized)
    (by
      intro r hrr p hp v hv
      have ho : v.owns p = some (decide (p % nrank = r)) := by
        unfold SpVec.owns segOwner vectorPartitionFn
        rw [hv.hrank, if_neg (by omega), hv.hme]
        simp only [Option.bind_eq_bind, Option.bind_some, Option.some.injEq]
        rw [Bool.eq_iff_iff]; simp
      rw [ho, Option.bind_some]
      by_cases e : p % nrank = r
      · rw [if_pos (by simpa using e)]
        simp only [if_pos e]
        exact (SpVec.modifySeg_id (by rw [hv.size]; exact hp)).symm
      · rw [if_neg (by simpa using e)]
        simp only [if_neg e])
    (C := fun c => if c.2 % nrank = c.1 then d.cell c else (d.cell c).setUninitialized)
    (by
      intro r p _ _
      by_cases e : p % nrank = r
      · simp only [if_pos e]
      · simp only [if_neg e])
  refine ⟨d', a1, a2.wf ?_, a3⟩
  intro r p hrr hp
  rw [a3 r p hrr hp]
  have hw := (h.rank r hrr).seg p hp
  have hc := (h.rank r hrr).cap p hp
  by_cases e : p % nrank = r
  · simp only [if_pos e]; exact ⟨hw, hc⟩
  · simp only [if_neg e]; exact ⟨Segment.setUninitialized_WF hw, hc⟩

/-- Receiving several partial results into the queue of one segment. -/
theorem recvQueue_many {ser : Bool} {threads : Nat} {o o' : κ → Segment α} {g : κ → Fresh α} (l : List κ)
    {s : Segment α} (hs : l ≠ [] → s.WF) (ho : ∀ k ∈ l, Compressed ser threads (o k) (o' k))
    (hcap : ∀ k ∈ l, (o k).capacity = s.capacity) {ms : List (Nat → Option α)}
    (hm : List.Forall₂ (fun r m => Buffer.Carries ser s.capacity r m) s.received ms) :
    ∃ s', l.foldlM (fun s k => ((o' k).send ser).bind fun msg => s.recvQueue ser threads (g k) msg) s = some s' ∧
      (s.WF → s'.WF) ∧ s'.capacity = s.capacity ∧ s'.props = s.props ∧
      List.Forall₂ (fun r m => Buffer.Carries ser s.capacity r m) s'.received (ms ++ l.map (fun k => (o k).view)) := by
  induction l generalizing s ms with
  | nil => exact ⟨s, rfl, fun h => h, rfl, rfl, by simpa using hm⟩
  | cons k l ih =>
    have hk := ho k List.mem_cons_self
    obtain ⟨b, b1, b2, b3⟩ := hk.carries
    have hw := hs (by simp)
    obtain ⟨msg, s1, b', d1, d2, d3, d4, d5, d6, d7⟩ := Segment.recvQueue_spec (s := o' k) (r := s) b1 hk.wf.ni
      (hk.wf.dims b b1) hw (by rw [hk.capacity]; exact hcap k List.mem_cons_self) ser (m := (o k).view)
      (by rw [hk.capacity]; exact b2) (tr := threads) (fun h => by rw [b3 h]; exact Nat.le_refl _) (g k)
    obtain ⟨s', e1, e2, e3, e4, e5⟩ := ih (s := s1) (fun _ => d3) (fun x hx => ho x (List.mem_cons_of_mem _ hx))
      (fun x hx => by rw [d4]; exact hcap x (List.mem_cons_of_mem _ hx)) (ms := ms ++ [(o k).view]) (by
        rw [d4, d6]
        exact List.rel_append hm (.cons d7 .nil))
    refine ⟨s', ?_, fun _ => e2 d3, by rw [e3, d4], by rw [e4, d5], ?_⟩
    · rw [List.foldlM_cons, d1]
      simp only [Option.bind_eq_bind, Option.bind_some]
      rw [d2]; exact e1
    · rw [d4] at e5
      rw [List.map_cons]
      simpa using e5

/-- The ranks other than the owner that take part in the reduction of segment `p`. -/
def partners (nrank : Nat) (pairs : List (Nat × Nat)) (p : Nat) : List Nat :=
  ((foreign nrank pairs).filter (fun k => decide (k.1 = p))).map (·.2)

theorem mem_partners {nrank : Nat} {pairs : List (Nat × Nat)} {p r : Nat} :
    r ∈ partners nrank pairs p ↔ (p, r) ∈ pairs ∧ p % nrank ≠ r := by
  unfold partners
  rw [List.mem_map]
  constructor
  · rintro ⟨⟨a, b⟩, hk, rfl⟩
    rw [List.mem_filter, mem_foreign] at hk
    obtain ⟨h1, h2⟩ := hk
    simp only [decide_eq_true_eq] at h2
    subst h2
    exact h1
  · intro h
    exact ⟨(p, r), List.mem_filter.mpr ⟨mem_foreign.mpr h, by simp⟩, rfl⟩

theorem nodup_partners {nrank : Nat} {pairs : List (Nat × Nat)} (h : pairs.Nodup) (p : Nat) :
    (partners nrank pairs p).Nodup := by
  unfold partners
  rw [List.Nodup, List.pairwise_map]
  have h1 : ((foreign nrank pairs).filter (fun k => decide (k.1 = p))).Nodup :=
    (h.sublist List.filter_sublist).sublist List.filter_sublist
  refine h1.imp_of_mem ?_
  intro a b ha hb hab e
  rw [List.mem_filter] at ha hb
  exact hab (Prod.ext ((by simpa using ha.2 : a.1 = p).trans (by simpa using hb.2 : b.1 = p).symm) e)

theorem DVec.reduceRows_spec {n nseg nrank : Nat} {d : DVec α} (h : d.WF n nseg nrank) (hr : 0 < nrank) (ser : Bool)
    {threads : Nat} (hth : 0 < threads) (add : α → α → α) (g gq : Nat → Nat → Fresh α) {pairs : List (Nat × Nat)}
    (hnd : pairs.Nodup) (hv : ∀ jr ∈ pairs, jr.1 < nseg ∧ jr.2 < nrank)
    (hq : ∀ p, p < nseg → (d.own nrank p).received = []) :
    ∃ d' : DVec α, d.reduceRows ser threads nrank nseg add g gq pairs = some d' ∧ d'.WF n nseg nrank ∧
      (∀ p, p < nseg → (d'.own nrank p).Ready ∧ (d'.own nrank p).received = [] ∧
        ∀ i, i < bnd n nseg (p + 1) - bnd n nseg p → (d'.own nrank p).view i =
          (partners nrank pairs p).foldl (fun acc r => combine add acc ((d.cell (r, p)).view i))
            ((d.own nrank p).view i)) ∧
      (∀ r p, r < nrank → p < nseg → p % nrank ≠ r → ∀ i, (d'.cell (r, p)).view i = none) := by
  have hcw : ∀ r p, r < nrank → p < nseg → (d.cell (r, p)).WF ∧
      (d.cell (r, p)).capacity = bnd n nseg (p + 1) - bnd n nseg p :=
    fun r p h1 h2 => ⟨(h.rank r h1).seg p h2, (h.rank r h1).cap p h2⟩
  have hL : ∀ k ∈ foreign nrank pairs, k.1 < nseg ∧ k.2 < nrank ∧ k.1 % nrank ≠ k.2 := by
    intro k hk
    rw [mem_foreign] at hk
    exact ⟨(hv k hk.1).1, (hv k hk.1).2, hk.2⟩
  -- compress
  obtain ⟨d1, a1, a2, a3⟩ := DVec.phaseE (t := fun jr : Nat × Nat => (jr.2, jr.1))
    (F := fun d jr => d.modSeg jr.2 jr.1 (fun s => s.compress ser threads (g jr.2 jr.1)))
    (g := fun jr s => s.compress ser threads (g jr.2 jr.1)) (d0 := d) (R := fun _ => False)
    (foreign nrank pairs) (fun k hk => ⟨⟨(hL k hk).2.1, (hL k hk).1⟩, fun h => h⟩)
    (fun _ _ _ _ _ => rfl) h.shape
    (Q := fun c s' => ((c.2, c.1) ∈ foreign nrank pairs → Compressed ser threads (d.cell c) s') ∧
      ((c.2, c.1) ∉ foreign nrank pairs → s' = d.cell c)) (by
      intro c
      by_cases hc : (c.2, c.1) ∈ foreign nrank pairs
      · have hk' := hL _ hc
        obtain ⟨s', e1, e2⟩ := compress_compressed (hcw c.1 c.2 hk'.2.1 hk'.1).1 ser hth (g c.1 c.2)
        refine ⟨s', ?_, fun _ => e2, fun h => absurd hc h⟩
        rw [show (fun k : Nat × Nat => decide ((k.2, k.1) = c)) =
          (fun k : Nat × Nat => decide ((k.2, k.1) = (fun jr : Nat × Nat => (jr.2, jr.1)) (c.2, c.1))) from rfl,
          filter_single (t := fun jr : Nat × Nat => (jr.2, jr.1)) (nodup_foreign hnd) hc, List.foldlM_cons]
        show Option.bind ((d.cell (c.1, c.2)).compress ser threads (g c.1 c.2)) _ = _
        rw [e1]; rfl
      · refine ⟨d.cell c, ?_, fun h => absurd h hc, fun _ => rfl⟩
        rw [filter_none]
        · rfl
        · intro hm
          rw [List.mem_map] at hm
          obtain ⟨k, hk, e⟩ := hm
          apply hc
          have : (c.2, c.1) = k := by rw [← e]
          rw [this]; exact hk)
  -- receive
  have hsend : ∀ k ∈ foreign nrank pairs, Compressed ser threads (d.cell (k.2, k.1)) (d1.cell (k.2, k.1)) :=
    fun k hk => (a3 (k.2, k.1)).1 hk
  have hown1 : ∀ p, d1.cell (p % nrank, p) = d.cell (p % nrank, p) :=
    fun p => (a3 (p % nrank, p)).2 (fun hm => (mem_foreign.mp hm).2 rfl)
  obtain ⟨d2, b1, b2, b3⟩ := DVec.phaseE (t := fun jr : Nat × Nat => (jr.1 % nrank, jr.1))
    (F := fun d jr => (d.seg jr.2 jr.1).bind fun s => (s.send ser).bind fun msg =>
      d.modSeg (jr.1 % nrank) jr.1 (fun s => s.recvQueue ser threads (gq jr.2 jr.1) msg))
    (g := fun jr s => ((d1.cell (jr.2, jr.1)).send ser).bind fun msg => s.recvQueue ser threads (gq jr.2 jr.1) msg)
    (d0 := d1) (R := fun c => c.2 % nrank ≠ c.1)
    (foreign nrank pairs) (fun k hk => ⟨⟨Nat.mod_lt _ hr, (hL k hk).1⟩, fun h => h rfl⟩)
    (by
      intro k hk d' hd' hsame
      have hk' := hL k hk
      have hc1 := hcw k.2 k.1 hk'.2.1 hk'.1
      have hco := hcw (k.1 % nrank) k.1 (Nat.mod_lt _ hr) hk'.1
      have hcp := hsend k hk
      obtain ⟨b, b1, b2, b3⟩ := hcp.carries
      obtain ⟨msg, _, _, m1, _⟩ := Segment.recvQueue_spec (s := d1.cell (k.2, k.1)) (r := d.cell (k.1 % nrank, k.1)) b1 hcp.wf.ni
        (hcp.wf.dims b b1) hco.1 (by rw [hcp.capacity, hc1.2, hco.2]) ser (m := (d.cell (k.2, k.1)).view)
        (by rw [hcp.capacity]; exact b2) (tr := threads) (fun h => by rw [b3 h]; exact Nat.le_refl _) (gq 0 0)
      rw [DVec.seg_spec hd' hk'.2.1 hk'.1, Option.bind_some, hsame (k.2, k.1) hk'.2.2, m1]
      rfl) a2
    (Q := fun c s' => (c.2 < nseg → c.2 % nrank = c.1 → s'.WF ∧ s'.capacity = (d.cell c).capacity ∧ s'.props = (d.cell c).props ∧
        List.Forall₂ (fun r m => Buffer.Carries ser (d.cell c).capacity r m) s'.received
          ((partners nrank pairs c.2).map (fun r => (d.cell (r, c.2)).view))) ∧
      (c.2 % nrank ≠ c.1 → s' = d1.cell c)) (by
      intro c
      by_cases hc : c.2 % nrank = c.1
      · have hlist : ∀ k ∈ (foreign nrank pairs).filter (fun k => decide ((k.1 % nrank, k.1) = c)),
            k ∈ foreign nrank pairs ∧ k.1 = c.2 := by
          intro k hk
          rw [List.mem_filter] at hk
          have e : (k.1 % nrank, k.1) = c := by simpa using hk.2
          exact ⟨hk.1, by rw [← e]⟩
        have hcell : d1.cell c = d.cell c := by
          have := hown1 c.2
          rw [hc] at this
          exact this
        by_cases hseg : c.2 < nseg
        · have hco := hcw (c.2 % nrank) c.2 (Nat.mod_lt _ hr) hseg
          rw [hc] at hco
          obtain ⟨s', e1, e2, e3, e4, e5⟩ := recvQueue_many (ser := ser) (threads := threads)
            (o := fun k : Nat × Nat => d.cell (k.2, k.1)) (o' := fun k => d1.cell (k.2, k.1))
            (g := fun k => gq k.2 k.1)
            ((foreign nrank pairs).filter (fun k => decide ((k.1 % nrank, k.1) = c))) (s := d.cell c)
            (fun _ => hco.1) (fun k hk => hsend k (hlist k hk).1)
            (fun k hk => by
              have hk' := hL k (hlist k hk).1
              rw [(hcw k.2 k.1 hk'.2.1 hk'.1).2, (hlist k hk).2]; exact hco.2.symm)
            (ms := []) (by
              have := hq c.2 hseg
              unfold DVec.own at this
              rw [hc] at this
              show List.Forall₂ _ ((d.get c.1).segs.get c.2).received []
              rw [this]; exact .nil)
          refine ⟨s', by rw [hcell]; exact e1, fun _ _ => ⟨e2 hco.1, e3, e4, ?_⟩, fun h => absurd hc h⟩
          rw [List.nil_append] at e5
          have : (partners nrank pairs c.2).map (fun r => (d.cell (r, c.2)).view) =
              ((foreign nrank pairs).filter (fun k => decide ((k.1 % nrank, k.1) = c))).map
                (fun k => (d.cell (k.2, k.1)).view) := by
            unfold partners
            rw [List.map_map]
            have hfil : (foreign nrank pairs).filter (fun k => decide (k.1 = c.2)) =
                (foreign nrank pairs).filter (fun k => decide ((k.1 % nrank, k.1) = c)) := by
              apply List.filter_congr
              intro k _
              rw [Bool.eq_iff_iff]
              simp only [decide_eq_true_eq]
              constructor
              · intro e; rw [e, hc]
              · intro e; rw [← e]
            rw [hfil]
            apply List.map_congr_left
            intro k hk
            show (d.cell (k.2, c.2)).view = _
            rw [(hlist k hk).2]
          rw [this]; exact e5
        · refine ⟨d1.cell c, ?_, fun h => absurd h hseg, fun _ => rfl⟩
          rw [List.filter_eq_nil_iff.mpr]
          · rfl
          · intro k hk e
            have e' : (k.1 % nrank, k.1) = c := by simpa using e
            exact hseg (by rw [← e']; exact (hL k hk).1)
      · refine ⟨d1.cell c, ?_, fun _ h => absurd h hc, fun _ => rfl⟩
        rw [List.filter_eq_nil_iff.mpr]
        · rfl
        · intro k hk e
          have e' : (k.1 % nrank, k.1) = c := by simpa using e
          exact hc (by rw [← e']))
  have w2 : d2.WF n nseg nrank := by
    refine b2.wf ?_
    intro r p hrr hp
    by_cases ho : p % nrank = r
    · obtain ⟨q1, q2, _⟩ := (b3 (r, p)).1 hp ho
      exact ⟨q1, by rw [q2]; exact (hcw r p hrr hp).2⟩
    · rw [(b3 (r, p)).2 ho]
      by_cases hf : (p, r) ∈ foreign nrank pairs
      · have := (a3 (r, p)).1 hf
        exact ⟨this.wf, by rw [this.capacity]; exact (hcw r p hrr hp).2⟩
      · rw [(a3 (r, p)).2 hf]; exact hcw r p hrr hp
  -- free the copies
  obtain ⟨d3, c1, c2, c3⟩ := DVec.freeNonOwned_spec w2 hr
  -- merge
  have hmerge : ∀ r p, r < nrank → p < nseg → ∃ s', (if p % nrank = r then
        ((d3.cell (r, p)).unionReceived ser threads add (g r p)).bind fun s => some s.setUninitializedReceived
      else some (d3.cell (r, p))) = some s' ∧ s'.WF ∧ s'.capacity = (d3.cell (r, p)).capacity ∧
      (p % nrank = r → s'.Ready ∧ s'.received = [] ∧ ∀ i, i < bnd n nseg (p + 1) - bnd n nseg p → s'.view i =
        (partners nrank pairs p).foldl (fun acc r => combine add acc ((d.cell (r, p)).view i)) ((d.cell (r, p)).view i)) ∧
      (p % nrank ≠ r → ∀ i, s'.view i = none) := by
    intro r p hrr hp
    have hw3 := (c2.rank r hrr).seg p hp
    by_cases ho : p % nrank = r
    · rw [if_pos ho]
      have e3 := c3 r p hrr hp
      rw [if_pos ho] at e3
      obtain ⟨q1, q2, q3, q4⟩ := (b3 (r, p)).1 hp ho
      rw [← q2] at q4
      obtain ⟨s', u1, u2, u3, u4, u5, u6, u7⟩ := Segment.unionReceived_spec q1 ser hth add (g r p) q4
      rw [e3, u1, Option.bind_some]
      refine ⟨_, rfl, Segment.setUninitializedReceived_WF u2, ?_, fun _ => ⟨u3, rfl, ?_⟩, fun h => absurd ho h⟩
      · exact u4
      · intro i hi
        have hcap := (hcw r p hrr hp).2
        show s'.view i = _
        rw [u7 i (by rw [q2, hcap]; exact hi), List.foldl_map]
        congr 1
        unfold Segment.view
        rw [q3]
    · rw [if_neg ho]
      have e3 := c3 r p hrr hp
      rw [if_neg ho] at e3
      refine ⟨_, rfl, hw3, rfl, fun h => absurd h ho, fun _ i => ?_⟩
      rw [e3, Segment.setUninitialized_view]
  obtain ⟨C, hC⟩ := Classical.skolem.mp (fun c : Nat × Nat => (Classical.em (c.1 < nrank ∧ c.2 < nseg)).elim
    (fun hc => (hmerge c.1 c.2 hc.1 hc.2).imp (fun s' hs' (_ : c.1 < nrank) (_ : c.2 < nseg) => hs'))
    (fun hc => ⟨d3.cell c, fun h1 h2 => absurd ⟨h1, h2⟩ hc⟩))
  obtain ⟨d4, f1, f2, f3⟩ := DVec.forSegs_spec c2.shape
    (B := fun r j v => (v.owns j).bind fun own =>
      if own = true then v.modifySeg j (fun s => (s.unionReceived ser threads add (g r j)).bind fun s =>
        some s.setUninitializedReceived) else some v)
    (g := fun r p s => if p % nrank = r then (s.unionReceived ser threads add (g r p)).bind fun s =>
        some s.setUninitializedReceived else some s)
    (by
      intro r hrr p hp v hv
      have ho : v.owns p = some (decide (p % nrank = r)) := by
        unfold SpVec.owns segOwner vectorPartitionFn
        rw [hv.hrank, if_neg (by omega), hv.hme]
        simp only [Option.bind_eq_bind, Option.bind_some, Option.some.injEq]
        rw [Bool.eq_iff_iff]; simp
      rw [ho, Option.bind_some]
      by_cases e : p % nrank = r
      · rw [if_pos (by simpa using e)]
        simp only [if_pos e]
      · rw [if_neg (by simpa using e)]
        simp only [if_neg e]
        exact (SpVec.modifySeg_id (by rw [hv.size]; exact hp)).symm)
    (C := C) (fun r p hrr hp => (hC (r, p) hrr hp).1)
  refine ⟨d4, ?_, f2.wf ?_, ?_, ?_⟩
  · unfold DVec.reduceRows
    simp only [Option.bind_eq_bind]
    have e1 := foldlM_foreign (σ := DVec α) hr
      (F := fun _ d jr => d.modSeg jr.2 jr.1 (fun s => s.compress ser threads (g jr.2 jr.1))) pairs d
    have e2 := foldlM_foreign (σ := DVec α) hr (F := fun o d jr => (d.seg jr.2 jr.1).bind fun s => (s.send ser).bind fun msg =>
      d.modSeg o jr.1 (fun s => s.recvQueue ser threads (gq jr.2 jr.1) msg)) pairs d1
    rw [e1, a1, Option.bind_some, e2, b1, Option.bind_some, c1, Option.bind_some]
    exact f1
  · intro r p hrr hp
    rw [f3 r p hrr hp]
    have := hC (r, p) hrr hp
    exact ⟨this.2.1, by rw [this.2.2.1]; exact (c2.rank r hrr).cap p hp⟩
  · intro p hp
    have hm := Nat.mod_lt p hr
    have := (hC (p % nrank, p) hm hp).2.2.2.1 rfl
    show (d4.cell (p % nrank, p)).Ready ∧ (d4.cell (p % nrank, p)).received = [] ∧ _
    refine ⟨by rw [f3 _ p hm hp]; exact this.1, by rw [f3 _ p hm hp]; exact this.2.1, ?_⟩
    intro i hi
    show (d4.cell (p % nrank, p)).view i = _
    rw [f3 _ p hm hp]
    exact this.2.2 i hi
  · intro r p hrr hp ho i
    rw [f3 r p hrr hp]
    exact (hC (r, p) hrr hp).2.2.2.2 ho i

end GraphMat

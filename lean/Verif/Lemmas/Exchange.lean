import Verif.Lemmas.Phase
import Verif.Lemmas.Reduce
import Verif.Props.Compress

namespace GraphMat

variable {α κ E : Type}

/-- `DVec.phase` with the final cells given by a predicate. -/
theorem DVec.phaseE {n nseg nrank : Nat} {t : κ → Nat × Nat} {F : DVec α → κ → Option (DVec α)}
    {g : κ → Segment α → Option (Segment α)} {d0 : DVec α} {R : Nat × Nat → Prop} (L : List κ)
    (hL : ∀ k ∈ L, ((t k).1 < nrank ∧ (t k).2 < nseg) ∧ ¬ R (t k))
    (hF : ∀ k ∈ L, ∀ d : DVec α, d.Shape n nseg nrank → (∀ c, R c → d.cell c = d0.cell c) →
      F d k = d.modSeg (t k).1 (t k).2 (g k))
    (h0 : d0.Shape n nseg nrank) {Q : Nat × Nat → Segment α → Prop}
    (hC : ∀ c, ∃ s', (L.filter (fun k => decide (t k = c))).foldlM (fun s k => g k s) (d0.cell c) = some s' ∧ Q c s') :
    ∃ d' : DVec α, L.foldlM F d0 = some d' ∧ d'.Shape n nseg nrank ∧ ∀ c, Q c (d'.cell c) := by
  obtain ⟨C, hC'⟩ := Classical.skolem.mp hC
  obtain ⟨d', h1, h2, h3⟩ := DVec.phase L hL hF h0 (C := C) (fun c => (hC' c).1)
  exact ⟨d', h1, h2, fun c => by rw [h3]; exact (hC' c).2⟩

theorem segOwner_eq {nrank : Nat} (hr : 0 < nrank) (j : Nat) : segOwner nrank j = some (j % nrank) := by
  unfold segOwner vectorPartitionFn
  rw [if_neg (by omega)]

/-- The pairs (segment, rank) whose rank is not the owner of the segment. -/
def foreign (nrank : Nat) (pairs : List (Nat × Nat)) : List (Nat × Nat) :=
  pairs.filter (fun jr => decide (jr.1 % nrank ≠ jr.2))

theorem foldlM_foreign {σ : Type} {nrank : Nat} (hr : 0 < nrank) {F : Nat → σ → Nat × Nat → Option σ}
    (pairs : List (Nat × Nat)) (s : σ) :
    pairs.foldlM (fun d jr => (segOwner nrank jr.1).bind fun o => if o ≠ jr.2 then F o d jr else some d) s =
      (foreign nrank pairs).foldlM (fun d jr => F (jr.1 % nrank) d jr) s := by
  unfold foreign
  rw [foldlM_filter]
  refine foldlM_ext ?_ s
  intro jr _ d
  rw [segOwner_eq hr, Option.bind_some]
  simp only [decide_eq_true_eq]

/-- `s'` is `s` after at least one `compress`. -/
structure Compressed (ser : Bool) (threads : Nat) (s s' : Segment α) : Prop where
  wf : s'.WF
  ready : s'.Ready
  capacity : s'.capacity = s.capacity
  received : s'.received = s.received
  pool : s'.pool = s.pool
  view : s'.view = s.view
  carries : ∃ b, s'.props = some b ∧ b.Carries ser s.capacity s.view ∧ (ser = true → b.sdata.length = threads * 16)

theorem compress_compressed {s : Segment α} (h : s.WF) (ser : Bool) {threads : Nat} (hth : 0 < threads) (g : Fresh α) :
    ∃ s', s.compress ser threads g = some s' ∧ Compressed ser threads s s' := by
  obtain ⟨b, h1, h2, h3, h4, h5, h6, h7⟩ := Segment.compress_spec h ser hth g
  exact ⟨_, h1, ⟨h.congr_props h3 (fun _ => h4), ⟨b, rfl, h2⟩, rfl, rfl, rfl, h5, ⟨b, rfl, h6, h7⟩⟩⟩

theorem Compressed.trans {ser : Bool} {threads : Nat} {s s' s'' : Segment α} (h : Compressed ser threads s s')
    (h' : Compressed ser threads s' s'') : Compressed ser threads s s'' := by
  refine ⟨h'.wf, h'.ready, by rw [h'.capacity, h.capacity], by rw [h'.received, h.received],
    by rw [h'.pool, h.pool], by rw [h'.view, h.view], ?_⟩
  obtain ⟨b, b1, b2, b3⟩ := h'.carries
  exact ⟨b, b1, by rw [← h.capacity, ← h.view]; exact b2, b3⟩

/-- Repeated `compress` of the same segment. -/
theorem compress_many {ser : Bool} {threads : Nat} (hth : 0 < threads) {g : κ → Fresh α} (l : List κ)
    {s : Segment α} (h : l ≠ [] → s.WF) :
    ∃ s', l.foldlM (fun s k => s.compress ser threads (g k)) s = some s' ∧
      (l = [] → s' = s) ∧ (l ≠ [] → Compressed ser threads s s') := by
  induction l generalizing s with
  | nil => exact ⟨s, rfl, fun _ => rfl, fun h => absurd rfl h⟩
  | cons k l ih =>
    obtain ⟨s1, h1, h2⟩ := compress_compressed (h (by simp)) ser hth (g k)
    obtain ⟨s', e1, e2, e3⟩ := ih (s := s1) (fun _ => h2.wf)
    refine ⟨s', ?_, fun h => (by cases h), fun _ => ?_⟩
    · rw [List.foldlM_cons, h1]; exact e1
    · by_cases hl : l = []
      · rw [e2 hl]; exact h2
      · exact h2.trans (e3 hl)

/-- `s'` received what a segment with map `m` carries. -/
structure Got (ser : Bool) (s s' : Segment α) (m : Nat → Option α) : Prop where
  ni : s'.numInts = (s'.capacity + 31) / 32
  capacity : s'.capacity = s.capacity
  received : s'.received = s.received
  pool : s'.pool = s.pool
  carries : ∃ b, s'.props = some b ∧ b.uninit = false ∧ b.Dims s.capacity s.numInts ∧ b.Carries ser s.capacity m

theorem recv_got {ser : Bool} {threads : Nat} {s o o0 : Segment α} (hs : s.WF)
    (ho : Compressed ser threads o0 o) (hcap : o0.capacity = s.capacity) (g : Fresh α) :
    ∃ msg s', o.send ser = some msg ∧ s.recv ser threads g msg = some s' ∧ Got ser s s' o0.view := by
  obtain ⟨p, p1, p2⟩ := Segment.alloc_spec hs g
  obtain ⟨b, b1, b2, b3⟩ := ho.carries
  have hcapo : o.capacity = s.capacity := by rw [ho.capacity, hcap]
  have hni : o.numInts = s.numInts := by rw [ho.wf.ni, hs.ni, hcapo]
  obtain ⟨msg, p', q1, q2, q3, q4, q5⟩ := Buffer.transfer (s := o) b1 ho.wf.ni (ho.wf.dims b b1)
    ser (by rw [ho.capacity]; exact b2) (p := p) (by rw [hcapo, hni]; exact p2) (threads := threads)
    (fun h => by rw [b3 h]; exact Nat.le_refl _)
  rw [hcapo, hni] at q2 q4
  rw [hcapo] at q5
  refine ⟨msg, { s with props := some p' }, q1, ?_, ⟨hs.ni, rfl, rfl, rfl, ⟨p', rfl, q3, q4, q5⟩⟩⟩
  unfold Segment.recv
  rw [p1]
  simp only [Option.bind_eq_bind, Option.bind_some]
  rw [q2]; rfl

theorem decompress_got {ser : Bool} {threads : Nat} (hth : 0 < threads) {s s' : Segment α} {m : Nat → Option α}
    (hs : s.WF) (h : Got ser s s' m) (hm : ∀ i, s.capacity ≤ i → m i = none) :
    ∃ s'', s'.decompress ser threads = some s'' ∧ s''.WF ∧ s''.Ready ∧ s''.capacity = s.capacity ∧
      s''.received = s.received ∧ s''.pool = s.pool ∧ s''.view = m := by
  obtain ⟨b, b1, b2, b3, b4⟩ := h.carries
  have hni : s'.numInts = s.numInts := by rw [h.ni, hs.ni, h.capacity]
  obtain ⟨b', e1, e2, e3, e4, e5⟩ := Segment.decompress_spec b1 h.ni (by rw [h.capacity, hni]; exact b3) b2 ser hth
    (m := m) (by rw [h.capacity]; exact hm) (by rw [h.capacity]; exact b4)
  refine ⟨_, e1, ⟨h.ni, ?_, ?_, ?_, ?_⟩, ⟨b', rfl, e2⟩, h.capacity, h.received, h.pool, e5⟩
  · intro b hb; cases hb; exact e3
  · intro b hb _; cases hb; exact e4
  · intro b hb
    simp only [h.received] at hb
    simp only [h.capacity, hni]
    exact hs.recv b hb
  · intro b hb
    simp only [h.pool] at hb
    simp only [h.capacity, hni]
    exact hs.pool b hb

/-- Segment `p` on rank `r` is a copy needed by `pairs`. -/
theorem mem_foreign {nrank : Nat} {pairs : List (Nat × Nat)} {jr : Nat × Nat} :
    jr ∈ foreign nrank pairs ↔ jr ∈ pairs ∧ jr.1 % nrank ≠ jr.2 := by
  unfold foreign; rw [List.mem_filter]; simp

theorem nodup_foreign {nrank : Nat} {pairs : List (Nat × Nat)} (h : pairs.Nodup) :
    ((foreign nrank pairs).map (fun jr => (jr.2, jr.1))).Nodup := by
  rw [List.Nodup, List.pairwise_map]
  refine (h.sublist List.filter_sublist).imp ?_
  intro a b hab e
  exact hab (by rw [Prod.ext_iff] at e ⊢; exact ⟨e.2, e.1⟩)

/-- What the broadcast does to the copy of segment `c.2` on rank `c.1`. -/
structure BCell (nrank : Nat) (pairs : List (Nat × Nat)) (d : DVec α) (c : Nat × Nat) (s' : Segment α) : Prop where
  wf : (d.cell c).WF → s'.WF
  capacity : s'.capacity = (d.cell c).capacity
  received : s'.received = (d.cell c).received
  pool : s'.pool = (d.cell c).pool
  own : c.2 % nrank = c.1 → s'.view = (d.cell c).view ∧ ((d.cell c).Ready → s'.Ready)
  other : (c.2, c.1) ∈ foreign nrank pairs → s'.Ready ∧ s'.view = (d.own nrank c.2).view
  idle : c.2 % nrank ≠ c.1 → (c.2, c.1) ∉ foreign nrank pairs → s' = d.cell c
  shared : c.2 % nrank = c.1 → (∃ k ∈ foreign nrank pairs, k.1 = c.2) → s'.Ready
  alone : c.2 % nrank = c.1 → (¬ ∃ k ∈ foreign nrank pairs, k.1 = c.2) → s' = d.cell c

theorem DVec.broadcast_spec {n nseg nrank : Nat} {d : DVec α} (h : d.WF n nseg nrank) (hr : 0 < nrank) (ser : Bool)
    {threads : Nat} (hth : 0 < threads) (g : Nat → Nat → Fresh α) {pairs : List (Nat × Nat)} (hnd : pairs.Nodup)
    (hv : ∀ jr ∈ pairs, jr.1 < nseg ∧ jr.2 < nrank) :
    ∃ d' : DVec α, d.broadcast ser threads nrank g pairs = some d' ∧ d'.WF n nseg nrank ∧
      ∀ r p, r < nrank → p < nseg → BCell nrank pairs d (r, p) (d'.cell (r, p)) := by
  have hcw : ∀ r p, r < nrank → p < nseg → (d.cell (r, p)).WF ∧
      (d.cell (r, p)).capacity = bnd n nseg (p + 1) - bnd n nseg p :=
    fun r p h1 h2 => ⟨(h.rank r h1).seg p h2, (h.rank r h1).cap p h2⟩
  have hL : ∀ k ∈ foreign nrank pairs, k.1 < nseg ∧ k.2 < nrank ∧ k.1 % nrank ≠ k.2 := by
    intro k hk
    rw [mem_foreign] at hk
    exact ⟨(hv k hk.1).1, (hv k hk.1).2, hk.2⟩
  -- compress
  obtain ⟨d1, a1, a2, a3⟩ := DVec.phaseE (t := fun jr : Nat × Nat => (jr.1 % nrank, jr.1))
    (F := fun d jr => d.modSeg (jr.1 % nrank) jr.1 (fun s => s.compress ser threads (g (jr.1 % nrank) jr.1)))
    (g := fun jr s => s.compress ser threads (g (jr.1 % nrank) jr.1)) (d0 := d) (R := fun _ => False)
    (foreign nrank pairs) (fun k hk => ⟨⟨Nat.mod_lt _ hr, (hL k hk).1⟩, fun h => h⟩)
    (fun _ _ _ _ _ => rfl) h.shape
    (Q := fun c s' => ((∃ k ∈ foreign nrank pairs, (k.1 % nrank, k.1) = c) → Compressed ser threads (d.cell c) s') ∧
      ((¬ ∃ k ∈ foreign nrank pairs, (k.1 % nrank, k.1) = c) → s' = d.cell c)) (by
      intro c
      obtain ⟨s', e1, e2, e3⟩ := compress_many (ser := ser) hth (g := fun jr : Nat × Nat => g (jr.1 % nrank) jr.1)
        ((foreign nrank pairs).filter (fun k => decide ((k.1 % nrank, k.1) = c))) (s := d.cell c) (by
          intro hne
          obtain ⟨k, hk⟩ := List.exists_mem_of_ne_nil _ hne
          rw [List.mem_filter] at hk
          have := hL k hk.1
          have e : (k.1 % nrank, k.1) = c := by simpa using hk.2
          subst e
          exact (hcw _ _ (Nat.mod_lt _ hr) this.1).1)
      refine ⟨s', e1, ?_, ?_⟩
      · rintro ⟨k, hk, hkc⟩
        exact e3 (List.ne_nil_of_mem (List.mem_filter.mpr ⟨hk, by simpa using hkc⟩))
      · intro hno
        apply e2
        rw [List.filter_eq_nil_iff]
        intro k hk hkc
        exact hno ⟨k, hk, by simpa using hkc⟩)
  -- send and receive
  have hown : ∀ k ∈ foreign nrank pairs, Compressed ser threads (d.cell (k.1 % nrank, k.1)) (d1.cell (k.1 % nrank, k.1)) :=
    fun k hk => (a3 _).1 ⟨k, hk, rfl⟩
  have hself : ∀ r p, p % nrank ≠ r → d1.cell (r, p) = d.cell (r, p) := by
    intro r p hne
    apply (a3 _).2
    rintro ⟨k, _, e⟩
    rw [Prod.ext_iff] at e
    simp only at e
    rw [e.2] at e
    exact hne e.1
  obtain ⟨d2, b1, b2, b3⟩ := DVec.phaseE (t := fun jr : Nat × Nat => (jr.2, jr.1))
    (F := fun d jr => (d.seg (jr.1 % nrank) jr.1).bind fun s => (s.send ser).bind fun msg =>
      d.modSeg jr.2 jr.1 (fun s => s.recv ser threads (g jr.2 jr.1) msg))
    (g := fun jr s => ((d1.cell (jr.1 % nrank, jr.1)).send ser).bind fun msg => s.recv ser threads (g jr.2 jr.1) msg)
    (d0 := d1) (R := fun c => c.2 % nrank = c.1)
    (foreign nrank pairs) (fun k hk => ⟨⟨(hL k hk).2.1, (hL k hk).1⟩, (hL k hk).2.2⟩)
    (by
      intro k hk d' hd' hsame
      have hk' := hL k hk
      have := hcw k.2 k.1 hk'.2.1 hk'.1
      have hco := hcw (k.1 % nrank) k.1 (Nat.mod_lt _ hr) hk'.1
      obtain ⟨msg, _, m1, _⟩ := recv_got (ser := ser) (threads := threads) this.1 (hown k hk)
        (by rw [hco.2, this.2]) (g 0 0)
      rw [DVec.seg_spec hd' (Nat.mod_lt _ hr) hk'.1, Option.bind_some, hsame _ rfl, m1]
      rfl) a2
    (Q := fun c s' => ((c.2, c.1) ∈ foreign nrank pairs → Got ser (d.cell c) s' (d.own nrank c.2).view) ∧
      ((c.2, c.1) ∉ foreign nrank pairs → s' = d1.cell c)) (by
      intro c
      by_cases hc : (c.2, c.1) ∈ foreign nrank pairs
      · have hk' := hL _ hc
        simp only at hk'
        have := hcw c.1 c.2 hk'.2.1 hk'.1
        have hco := hcw (c.2 % nrank) c.2 (Nat.mod_lt _ hr) hk'.1
        obtain ⟨msg, s', m1, m2, m3⟩ := recv_got (ser := ser) (threads := threads) this.1 (hown _ hc)
          (by rw [hco.2]; exact this.2.symm) (g c.1 c.2)
        refine ⟨s', ?_, fun _ => m3, fun h => absurd hc h⟩
        rw [show (fun k : Nat × Nat => decide ((k.2, k.1) = c)) =
          (fun k : Nat × Nat => decide ((k.2, k.1) = (fun jr : Nat × Nat => (jr.2, jr.1)) (c.2, c.1))) from rfl,
          filter_single (t := fun jr : Nat × Nat => (jr.2, jr.1)) (nodup_foreign hnd) hc, List.foldlM_cons]
        simp only [Option.bind_eq_bind]
        rw [m1, Option.bind_some, show d1.cell c = d.cell c from hself c.1 c.2 hk'.2.2, m2]
        rfl
      · refine ⟨d1.cell c, ?_, fun h => absurd h hc, fun _ => rfl⟩
        rw [filter_none]
        · rfl
        · intro hm
          rw [List.mem_map] at hm
          obtain ⟨k, hk, e⟩ := hm
          apply hc
          have : (c.2, c.1) = k := by rw [← e]
          rw [this]; exact hk)
  -- decompress
  obtain ⟨d3, c1, c2, c3⟩ := DVec.phaseE (t := fun jr : Nat × Nat => (jr.2, jr.1))
    (F := fun d jr => d.modSeg jr.2 jr.1 (fun s => s.decompress ser threads))
    (g := fun _ s => s.decompress ser threads) (d0 := d2) (R := fun _ => False)
    (foreign nrank pairs) (fun k hk => ⟨⟨(hL k hk).2.1, (hL k hk).1⟩, fun h => h⟩)
    (fun _ _ _ _ _ => rfl) b2
    (Q := fun c s' => ((c.2, c.1) ∈ foreign nrank pairs → s'.WF ∧ s'.Ready ∧ s'.capacity = (d.cell c).capacity ∧
        s'.received = (d.cell c).received ∧ s'.pool = (d.cell c).pool ∧ s'.view = (d.own nrank c.2).view) ∧
      ((c.2, c.1) ∉ foreign nrank pairs → s' = d1.cell c)) (by
      intro c
      by_cases hc : (c.2, c.1) ∈ foreign nrank pairs
      · have hk' := hL _ hc
        simp only at hk'
        have := hcw c.1 c.2 hk'.2.1 hk'.1
        have hco := hcw (c.2 % nrank) c.2 (Nat.mod_lt _ hr) hk'.1
        obtain ⟨s'', m1, m2⟩ := decompress_got hth this.1 ((b3 c).1 hc) (by
          intro i hi
          refine Segment.view_ge hco.1 ?_
          rw [hco.2, ← this.2]; exact hi)
        refine ⟨s'', ?_, fun _ => m2, fun h => absurd hc h⟩
        rw [show (fun k : Nat × Nat => decide ((k.2, k.1) = c)) =
          (fun k : Nat × Nat => decide ((k.2, k.1) = (fun jr : Nat × Nat => (jr.2, jr.1)) (c.2, c.1))) from rfl,
          filter_single (t := fun jr : Nat × Nat => (jr.2, jr.1)) (nodup_foreign hnd) hc, List.foldlM_cons]
        rw [m1]; rfl
      · refine ⟨d2.cell c, ?_, fun h => absurd h hc, (b3 c).2⟩
        rw [filter_none]
        · rfl
        · intro hm
          rw [List.mem_map] at hm
          obtain ⟨k, hk, e⟩ := hm
          apply hc
          have : (c.2, c.1) = k := by rw [← e]
          rw [this]; exact hk)
  -- summary
  have fin : ∀ r p, r < nrank → p < nseg → BCell nrank pairs d (r, p) (d3.cell (r, p)) := by
    intro r p hrr hp
    by_cases hf : (p, r) ∈ foreign nrank pairs
    · obtain ⟨q1, q2, q3, q4, q5, q6⟩ := (c3 (r, p)).1 hf
      have := (mem_foreign.mp hf).2
      exact ⟨fun _ => q1, q3, q4, q5, fun e => absurd e this, fun _ => ⟨q2, q6⟩, fun _ h => absurd hf h,
        fun e _ => absurd e this, fun e _ => absurd e this⟩
    · rw [(c3 (r, p)).2 hf]
      by_cases ho : p % nrank = r
      · by_cases hk : ∃ k ∈ foreign nrank pairs, (k.1 % nrank, k.1) = (r, p)
        · have := (a3 (r, p)).1 hk
          exact ⟨fun _ => this.wf, this.capacity, this.received, this.pool, fun _ => ⟨this.view, fun _ => this.ready⟩,
            fun h => absurd h hf, fun h _ => absurd ho h, fun _ _ => this.ready,
            fun _ hno => absurd ⟨hk.choose, hk.choose_spec.1, (Prod.ext_iff.mp hk.choose_spec.2).2⟩ hno⟩
        · rw [(a3 (r, p)).2 hk]
          refine ⟨fun h => h, rfl, rfl, rfl, fun _ => ⟨rfl, fun h => h⟩, fun h => absurd h hf, fun _ _ => rfl, ?_, fun _ _ => rfl⟩
          rintro _ ⟨k, hk1, hk2⟩
          refine absurd ⟨k, hk1, ?_⟩ hk
          simp only at hk2
          rw [hk2, ho]
      · rw [hself r p ho]
        exact ⟨fun h => h, rfl, rfl, rfl, fun _ => ⟨rfl, fun h => h⟩, fun h => absurd h hf, fun _ _ => rfl, fun h _ => absurd h ho,
          fun h _ => absurd h ho⟩
  refine ⟨d3, ?_, c2.wf ?_, fin⟩
  · unfold DVec.broadcast
    simp only [Option.bind_eq_bind]
    have e1 := foldlM_foreign (σ := DVec α) hr
      (F := fun o d jr => d.modSeg o jr.1 (fun s => s.compress ser threads (g o jr.1))) pairs d
    have e2 := foldlM_foreign (σ := DVec α) hr (F := fun o d jr => (d.seg o jr.1).bind fun s => (s.send ser).bind fun msg =>
      d.modSeg jr.2 jr.1 (fun s => s.recv ser threads (g jr.2 jr.1) msg)) pairs d1
    have e3 := foldlM_foreign (σ := DVec α) hr
      (F := fun _ d jr => d.modSeg jr.2 jr.1 (fun s => s.decompress ser threads)) pairs d2
    rw [e1, a1, Option.bind_some, e2, b1, Option.bind_some, e3, c1]
  · intro r p hrr hp
    have := fin r p hrr hp
    exact ⟨this.wf (hcw r p hrr hp).1, by rw [this.capacity]; exact (hcw r p hrr hp).2⟩

end GraphMat

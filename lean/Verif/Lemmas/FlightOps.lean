import Verif.Lemmas.Flight

/-! # Lemmas about arrays and transfers: operations on vectors -/
namespace GraphMat

theorem runsTo_givenBind {α β : Type} {x : Option α} {a : α} {k : α → FlightM β} {f : Flight} {R : β → Flight → Prop} (hx : x = some a)
    (h : RunsTo (k a) f R) : RunsTo (given x >>= k) f R := by
  rw [hx]
  exact h

theorem flat_mem {l : List FBuf} {b : FBuf} {a : Nat} (hb : b ∈ l) (ha : a ∈ b.ids) : a ∈ l.flatMap FBuf.ids :=
  List.mem_flatMap.mpr ⟨b, hb, ha⟩

theorem recvQueueFlight_runs {th : Nat} {ser : Bool} {s : FSeg} {f : Flight} (hf : f.Ok) (hg : s.Good th ser f)
    (hq : 0 < s.queued.length) (hp : ∀ t ∈ f.pending, t.span.arr ∈ s.ids → t.span.arr ∈ s.received.flatMap FBuf.ids) :
    RunsTo (s.recvSegmentQueue th ser) f (fun x f' => Moves s.ids x.1.ids f f' ∧ x.1.Good th ser f' ∧
      AddsReq true (x.1.received.flatMap FBuf.ids) f f' x.2 ∧
      (∀ a ∈ s.received.flatMap FBuf.ids, a ∈ x.1.received.flatMap FBuf.ids) ∧ x.1.queued.length + 1 = s.queued.length) := by
  unfold FSeg.recvSegmentQueue
  have hne : s.queued ≠ [] := by
    intro h; rw [h] at hq; simp at hq
  have hlast : s.queued.getLast? = some (s.queued.getLast hne) := List.getLast?_eq_some_getLast hne
  have hmdm : s.queued.getLast hne ∈ s.queued := List.getLast_mem hne
  have hmd : ser = true → (s.queued.getLast hne).parts ≤ th * 16 :=
    fun h => hg.mds h _ (List.mem_append.mpr (Or.inr hmdm))
  rw [hlast]
  generalize s.queued.getLast hne = md at hmd
  -- the buffer
  refine RunsTo.bind (Q := fun x f1 => f1.Ok ∧ f1.pending = f.pending ∧ f.next ≤ f1.next ∧ (∀ e ∈ f.live, e ∈ f1.live) ∧
      x.1.Good th ser s.cap f1 ∧ x.1.ids.Nodup ∧ (∀ t ∈ f.pending, t.span.arr ∉ x.1.ids) ∧
      (∀ a ∈ x.1.ids, a ∈ s.ids ∨ f.next ≤ a) ∧
      ((s.props.toList ++ s.received ++ [x.1] ++ x.2).flatMap FBuf.ids).Nodup ∧
      (∀ b ∈ x.2, b ∈ s.pool)) ?_ ?_
  · cases hl : s.pool.getLast? with
    | some b =>
      apply RunsTo.pure
      dsimp only
      have hpool : s.pool = s.pool.dropLast ++ [b] := by
        have hnp : s.pool ≠ [] := by intro h; rw [h] at hl; simp at hl
        rw [List.getLast?_eq_some_getLast hnp] at hl
        have := List.dropLast_append_getLast hnp
        injection hl with hl
        rw [hl] at this
        exact this.symm
      have hbm : b ∈ s.bufs := by
        unfold FSeg.bufs
        rw [hpool]
        simp
      have hbn : b.ids.Nodup := by
        have := hg.nodup
        unfold FSeg.ids at this
        obtain ⟨l1, l2, e⟩ := List.append_of_mem hbm
        rw [e, List.flatMap_append, List.flatMap_cons, List.nodup_append, List.nodup_append] at this
        exact this.2.1.1
      have hperm : (s.props.toList ++ s.received ++ [b] ++ s.pool.dropLast).Perm s.bufs := by
        unfold FSeg.bufs
        conv_rhs => rw [hpool]
        rw [List.append_assoc (s.props.toList ++ s.received)]
        exact List.Perm.append_left _ List.perm_append_comm
      have hnd : ((s.props.toList ++ s.received ++ [b] ++ s.pool.dropLast).flatMap FBuf.ids).Nodup :=
        (List.Perm.flatMap_right _ hperm).nodup_iff.mpr hg.nodup
      refine ⟨hf, rfl, Nat.le_refl _, fun _ he => he, hg.bufs b hbm, hbn, ?_, fun a ha => Or.inl (FSeg.mem_ids hbm ha), hnd, ?_⟩
      · intro t ht ha
        have h1 := hp t ht (FSeg.mem_ids hbm ha)
        rw [List.append_assoc, List.append_assoc, List.flatMap_append, List.flatMap_append, List.nodup_append] at hnd
        have h2 := hnd.2.1
        rw [List.nodup_append] at h2
        refine h2.2.2 _ h1 _ ?_ rfl
        exact flat_mem (b := b) (by simp) ha
      · intro d hd
        rw [hpool]
        exact List.mem_append.mpr (Or.inl hd)
    | none =>
      refine (newFBuf_runs (ser := ser) (cap := s.cap) hf).bind ?_
      rintro b f1 ⟨h1, h2, h3, h4, h5⟩
      apply RunsTo.pure
      dsimp only
      refine ⟨h1.ok, h2, h1.next, fun e he => h1.keep e he (by simp), h3, h4, ?_, fun a ha => Or.inr (h5 a ha), ?_, fun b hb => hb⟩
      · intro t ht ha
        have := h5 _ ha
        have := hf.pend t ht
        omega
      · have hperm : (s.props.toList ++ s.received ++ [b] ++ s.pool).Perm (b :: s.bufs) := by
          unfold FSeg.bufs
          rw [List.append_assoc (s.props.toList ++ s.received), List.singleton_append]
          exact List.perm_middle
        refine (List.Perm.flatMap_right _ hperm).nodup_iff.mpr ?_
        rw [List.flatMap_cons, List.nodup_append]
        refine ⟨h4, hg.nodup, ?_⟩
        rintro a ha e he rfl
        have := h5 a ha
        have := hg.lt hf he
        omega
  · rintro ⟨b, pool⟩ f1 ⟨k1, k2, k3, k4, k5, k6, k7, k8, k9, k10⟩
    dsimp only at k5 k6 k7 k8 k9 k10 ⊢
    refine (recvBuf_runs (md := md) k1 k5 k6 (by rw [k2]; exact k7) hmd).bind ?_
    rintro ⟨c, q⟩ f2 ⟨c1, c3, c4, c5⟩
    dsimp only at c1 c3 c4 c5 ⊢
    apply RunsTo.pure
    dsimp only
    have e1 : s.props.toList ++ s.received ++ [b] ++ pool = (s.props.toList ++ s.received) ++ b :: pool := by simp
    rw [e1] at k9
    have hold : ∀ d ∈ (s.props.toList ++ s.received) ++ b :: pool, d.Good th ser s.cap f1 := by
      intro d hd
      rw [List.mem_append, List.mem_cons] at hd
      have : d = b ∨ d ∈ s.bufs := by
        rcases hd with h | h | h
        · exact Or.inr (List.mem_append.mpr (Or.inl h))
        · exact Or.inl h
        · exact Or.inr (List.mem_append.mpr (Or.inr (k10 d h)))
      rcases this with rfl | h
      · exact k5
      · exact (hg.bufs d h).mono (fun e he _ => k4 e he)
    obtain ⟨g1, g2, g3⟩ := good_replace (s := s) k1 (P := s.props.toList ++ s.received) (Q := pool) (b := b) (c := c)
      hold k9 c1 c3 c4
    have hbufs : ({ s with queued := s.queued.dropLast, received := s.received ++ [c], pool := pool } : FSeg).bufs =
        (s.props.toList ++ s.received) ++ c :: pool := by
      simp [FSeg.bufs]
    have hout : ∀ a ∈ ((s.props.toList ++ s.received) ++ b :: pool).flatMap FBuf.ids, a ∈ s.ids ∨ f.next ≤ a := by
      intro a ha
      obtain ⟨d, hd, ha'⟩ := List.mem_flatMap.mp ha
      rw [List.mem_append, List.mem_cons] at hd
      rcases hd with h | h | h
      · exact Or.inl (FSeg.mem_ids (List.mem_append.mpr (Or.inl h)) ha')
      · exact k8 a (h ▸ ha')
      · exact Or.inl (FSeg.mem_ids (List.mem_append.mpr (Or.inr (k10 d h))) ha')
    refine ⟨⟨g1.ok, Nat.le_trans k3 g1.next, ?_, ?_⟩, ⟨?_, ?_, ?_⟩, ?_, ?_, ?_⟩
    · intro e he ha
      refine g1.keep e (k4 e he) (fun h => ?_)
      rcases hout _ h with h | h
      · exact ha h
      · have := hf.live e he
        omega
    · intro a ha
      unfold FSeg.ids at ha
      rw [hbufs] at ha
      rcases g1.ids a ha with h | h
      · exact hout a h
      · exact Or.inr (Nat.le_trans k3 h)
    · unfold FSeg.ids
      rw [hbufs]
      exact g2
    · rw [hbufs]
      exact g3
    · intro hs m hm
      dsimp only at hm
      apply hg.mds hs m
      rw [List.mem_append] at hm ⊢
      rcases hm with h | h
      · exact Or.inl h
      · exact Or.inr (List.dropLast_subset _ h)
    · obtain ⟨new, n1, n2, n3⟩ := c5.pend
      refine ⟨⟨new, by rw [n1, k2], n2, fun t ht => ⟨(n3 t ht).1, ?_⟩⟩⟩
      exact flat_mem (b := c) (by simp) (n3 t ht).2
    · intro a ha
      rw [List.flatMap_append]
      exact List.mem_append.mpr (Or.inl ha)
    · rw [List.length_dropLast]
      omega

/-! ### All segments of a rank -/

/-- The segments of all vectors: arrays live, sizes right, no array in two places. -/
structure FSegs.Good (c : FCfg) (S : FSegs) (f : Flight) : Prop where
  seg : ∀ κ, (S κ).Good c.threads (c.ser κ.1) f
  disj : ∀ κ κ', κ ≠ κ' → ∀ a ∈ (S κ).ids, a ∉ (S κ').ids

theorem FSegs.Good.same {c : FCfg} {S : FSegs} {f : Flight} (h : S.Good c f) {κ κ' : Nat × Nat} {a : Nat} (h1 : a ∈ (S κ).ids)
    (h2 : a ∈ (S κ').ids) : κ = κ' := by
  by_contra hne
  exact h.disj κ κ' hne a h1 h2

theorem FSegs.Good.mono {c : FCfg} {S : FSegs} {f f' : Flight} (h : S.Good c f) (hl : ∀ e ∈ f.live, e ∈ f'.live) : S.Good c f' :=
  ⟨fun κ => (h.seg κ).mono (fun e he _ => hl e he), h.disj⟩

theorem FSegs.Good.update {c : FCfg} {S : FSegs} {f f' : Flight} (h : S.Good c f) (hf : f.Ok) {κ : Nat × Nat} {s : FSeg}
    (hm : Moves (S κ).ids s.ids f f') (hs : s.Good c.threads (c.ser κ.1) f') :
    FSegs.Good c (Function.update S κ s) f' := by
  have key : ∀ κ', κ' ≠ κ → ∀ a ∈ (S κ').ids, a ∉ s.ids := by
    intro κ' hne a ha hs
    rcases hm.ids a hs with h1 | h1
    · exact h.disj κ' κ hne a ha h1
    · have := (h.seg κ').lt hf ha
      omega
  refine ⟨?_, ?_⟩
  · intro κ'
    by_cases hne : κ' = κ
    · subst hne; rw [Function.update_self]; exact hs
    · rw [Function.update_of_ne hne]
      exact (h.seg κ').mono (fun e he ha => hm.keep e he (h.disj κ' κ hne _ ha))
  · intro κ1 κ2 hne a ha
    by_cases h1 : κ1 = κ
    · subst h1
      rw [Function.update_self] at ha
      rw [Function.update_of_ne (fun h => hne h.symm)]
      exact fun hb => key κ2 (fun h => hne h.symm) a hb ha
    · rw [Function.update_of_ne h1] at ha
      by_cases h2 : κ2 = κ
      · subst h2
        rw [Function.update_self]
        exact key κ1 h1 a ha
      · rw [Function.update_of_ne h2]
        exact h.disj κ1 κ2 hne a ha

/-- A rank with nothing under way. -/
structure AtRest (c : FCfg) (S : FSegs) (f : Flight) : Prop where
  ok : f.Ok
  pend : f.pending = []
  good : S.Good c f

/-- Steps between operations on the network. -/
structure Rests (c : FCfg) (S S' : FSegs) (f' : Flight) : Prop where
  rest : AtRest c S' f'
  later : ∀ κ, (S κ).Later (S' κ)

theorem Rests.refl {c : FCfg} {S : FSegs} {f : Flight} (h : AtRest c S f) : Rests c S S f := ⟨h, fun _ => FSeg.Later.refl _⟩

theorem Rests.trans {c : FCfg} {S S' S'' : FSegs} {f f' : Flight} (h1 : Rests c S S' f) (h2 : Rests c S' S'' f') :
    Rests c S S'' f' := ⟨h2.rest, fun κ => (h1.later κ).trans (h2.later κ)⟩

theorem rests_update {c : FCfg} {S : FSegs} {f f' : Flight} {κ : Nat × Nat} {s : FSeg} (h : AtRest c S f)
    (hs : SegIdle c.threads (c.ser κ.1) (S κ) f s f') : Rests c S (Function.update S κ s) f' := by
  refine ⟨⟨hs.moves.ok, hs.pend, h.good.update h.ok hs.moves hs.good⟩, ?_⟩
  intro κ'
  by_cases hne : κ' = κ
  · subst hne; rw [Function.update_self]; exact hs.later
  · rw [Function.update_of_ne hne]; exact FSeg.Later.refl _

theorem mod_runs {c : FCfg} {S : FSegs} {f : Flight} {κ : Nat × Nat} {p : FSeg → FlightM FSeg} {R : FSeg → Prop} (h : AtRest c S f)
    (hp : RunsTo (p (S κ)) f (fun s f' => SegIdle c.threads (c.ser κ.1) (S κ) f s f' ∧ R s)) :
    RunsTo (S.mod κ p) f (fun S' f' => Rests c S S' f' ∧ R (S' κ)) := by
  unfold FSegs.mod
  refine hp.bind ?_
  rintro s f' ⟨h1, h2⟩
  exact RunsTo.pure ⟨rests_update h h1, by rw [Function.update_self]; exact h2⟩

theorem foldlM_runs {σ γ : Type} {p : σ → γ → FlightM σ} {I : List γ → σ → Flight → Prop}
    (step : ∀ x l s f, I (x :: l) s f → RunsTo (p s x) f (I l)) :
    ∀ l s f, I l s f → RunsTo (l.foldlM p s) f (I [])
  | [], s, f, h => by rw [List.foldlM_nil]; exact RunsTo.pure h
  | x :: l, s, f, h => by
    rw [List.foldlM_cons]
    refine (step x l s f h).bind ?_
    intro s' f' h'
    exact foldlM_runs step l s' f' h'

/-- A fold of steps at rest that each establish something which later steps keep. -/
theorem foldlM_rests {γ : Type} {c : FCfg} {p : FSegs → γ → FlightM FSegs} {C : γ → FSegs → Prop} {l : List γ} {S : FSegs} {f : Flight}
    (hC : ∀ x S S' f, Rests c S S' f → C x S → C x S')
    (step : ∀ x ∈ l, ∀ S1 f1, Rests c S S1 f1 → RunsTo (p S1 x) f1 (fun S' f' => Rests c S1 S' f' ∧ C x S')) (h : AtRest c S f) :
    RunsTo (l.foldlM p S) f (fun S' f' => Rests c S S' f' ∧ ∀ x ∈ l, C x S') := by
  have := foldlM_runs (p := p) (I := fun rem S' f' => (∀ x ∈ rem, x ∈ l) ∧ Rests c S S' f' ∧ ∀ x ∈ l, x ∈ rem ∨ C x S') (by
    rintro x rem S1 f1 ⟨h0, h1, h2⟩
    refine (step x (h0 x List.mem_cons_self) S1 f1 h1).mono ?_
    rintro S' f' ⟨h3, h4⟩
    refine ⟨fun y hy => h0 y (List.mem_cons_of_mem _ hy), h1.trans h3, ?_⟩
    intro y hy
    rcases h2 y hy with h5 | h5
    · rcases List.mem_cons.mp h5 with rfl | h5
      · exact Or.inr h4
      · exact Or.inl h5
    · exact Or.inr (hC y S1 S' f' h3 h5)) l S f ⟨fun _ h => h, Rests.refl h, fun _ h => Or.inl h⟩
  refine this.mono ?_
  rintro S' f' ⟨_, h1, h2⟩
  refine ⟨h1, fun x hx => ?_⟩
  rcases h2 x hx with h | h
  · simp at h
  · exact h

section ops
variable {c : FCfg} (hr : 0 < c.nrank)

/-- This rank sends segment `j` to rank `r`. -/
def IsSender (c : FCfg) (jr : Nat × Nat) : Prop := c.me = jr.1 % c.nrank ∧ c.me ≠ jr.2
/-- This rank receives segment `j`. -/
def IsReceiver (c : FCfg) (jr : Nat × Nat) : Prop := c.me = jr.2 ∧ c.me ≠ jr.1 % c.nrank

include hr in
theorem bcastCompress_runs (v : Nat) (say : Say) (pairs : List (Nat × Nat)) {S : FSegs} {f : Flight} (h : AtRest c S f) :
    RunsTo (bcastCompress c v say pairs S) f (fun S' f' => Rests c S S' f' ∧
      ∀ jr ∈ pairs, IsSender c jr → (S' (v, jr.1)).props.isSome) := by
  unfold bcastCompress
  refine foldlM_rests (C := fun jr S' => IsSender c jr → (S' (v, jr.1)).props.isSome)
    (fun jr S1 S2 f1 h1 h2 h3 => (h1.later _).props (h2 h3)) ?_ h
  intro jr _ S1 f1 h1
  refine runsTo_givenBind (segOwner_eq hr _) ?_
  split
  · refine (mod_runs h1.rest (R := fun s => s.props.isSome)
      (compress_runs _ _ _ h1.rest.ok h1.rest.pend (h1.rest.good.seg _))).mono ?_
    rintro S' f' ⟨h2, h3⟩
    exact ⟨h2, fun _ => h3⟩
  · rename_i hc
    exact RunsTo.pure ⟨Rests.refl h1.rest, fun h => absurd h hc⟩

include hr in
theorem bcastMd_runs (v : Nat) (say : Say) (pairs : List (Nat × Nat)) {S : FSegs} {f : Flight} (h : AtRest c S f)
    (hs : ∀ jr ∈ pairs, IsSender c jr → (S (v, jr.1)).props.isSome)
    (hm : c.ser v = true → ∀ j r, (say.heard (v, j) r).parts ≤ c.threads * 16) :
    RunsTo (bcastMd c v say pairs S) f (fun S' f' => Rests c S S' f' ∧
      ∀ jr ∈ pairs, IsReceiver c jr → (S' (v, jr.1)).props.isSome ∧ (S' (v, jr.1)).md.isSome) := by
  unfold bcastMd
  refine foldlM_rests (C := fun jr S' => IsReceiver c jr → (S' (v, jr.1)).props.isSome ∧ (S' (v, jr.1)).md.isSome)
    (fun jr S1 S2 f1 h1 h2 h3 => ⟨(h1.later _).props (h2 h3).1, (h1.later _).md (h2 h3).2⟩) ?_ h
  intro jr hjr S1 f1 h1
  refine runsTo_givenBind (segOwner_eq hr _) ?_
  refine RunsTo.bind (Q := fun _ f' => f' = f1) ?_ ?_
  · split
    · rename_i hc
      have := (h1.later (v, jr.1)).props (hs jr hjr hc)
      obtain ⟨b, hb⟩ := Option.isSome_iff_exists.mp this
      unfold FSeg.sendNnz
      rw [hb]
      exact RunsTo.pure rfl
    · exact RunsTo.pure rfl
  rintro _ f1 rfl
  split
  · refine (mod_runs (κ := (v, jr.1)) h1.rest (R := fun s => s.props.isSome ∧ s.md.isSome)
      (recvNnz_runs _ h1.rest.ok h1.rest.pend (h1.rest.good.seg _) (fun hser => hm hser _ _))).mono ?_
    rintro S' f' ⟨h2, h3⟩
    exact ⟨h2, fun _ => h3⟩
  · rename_i hc
    exact RunsTo.pure ⟨Rests.refl h1.rest, fun h => absurd h hc⟩

/-- While the segments of vector `v` are sent: `rem` are the pairs that are left, `W` the vectors already under way. -/
structure BcastInv (c : FCfg) (v : Nat) (W : List Nat) (S0 : FSegs) (rem : List (Nat × Nat)) (st : FSegs × List Nat) (f : Flight) :
    Prop where
  ok : f.Ok
  good : st.1.Good c f
  reqs : f.pending.map Transfer.req = st.2
  later : ∀ κ, (S0 κ).Later (st.1 κ)
  nodup : rem.Nodup
  pend : ∀ t ∈ f.pending, ∃ κ, t.span.arr ∈ (st.1 κ).ids ∧ (κ.1 ∈ W ∨ κ.1 = v ∧
    (c.me = κ.2 % c.nrank → t.inward = false) ∧ (c.me ≠ κ.2 % c.nrank → (κ.2, c.me) ∉ rem))

include hr in
theorem bcastData_runs (v : Nat) (W : List Nat) (hv : v ∉ W) (pairs : List (Nat × Nat)) {S : FSegs} {reqs : List Nat} {f : Flight}
    (hn : pairs.Nodup) (hok : f.Ok) (hg : S.Good c f) (hq : f.pending.map Transfer.req = reqs)
    (hp : ∀ t ∈ f.pending, ∃ κ, t.span.arr ∈ (S κ).ids ∧ κ.1 ∈ W)
    (hs : ∀ jr ∈ pairs, IsSender c jr → (S (v, jr.1)).props.isSome)
    (hrc : ∀ jr ∈ pairs, IsReceiver c jr → (S (v, jr.1)).props.isSome ∧ (S (v, jr.1)).md.isSome) :
    RunsTo (bcastData c v pairs (S, reqs)) f (fun st f' => f'.Ok ∧ st.1.Good c f' ∧ f'.pending.map Transfer.req = st.2 ∧
      (∀ κ, (S κ).Later (st.1 κ)) ∧ ∀ t ∈ f'.pending, ∃ κ, t.span.arr ∈ (st.1 κ).ids ∧ (κ.1 ∈ v :: W)) := by
  unfold bcastData
  have := foldlM_runs (I := fun rem st f => (∀ x ∈ rem, x ∈ pairs) ∧ BcastInv c v W S rem st f) (p := fun (st : FSegs × List Nat) (jr : Nat × Nat) => do
    let o ← given (segOwner c.nrank jr.1)
    let st ← (if c.me = o ∧ c.me ≠ jr.2 then do
        let q ← (st.1 (v, jr.1)).sendSegment (c.ser v)
        pure (st.1, st.2 ++ q)
      else pure st)
    if c.me = jr.2 ∧ c.me ≠ o then st.1.modReq st.2 (v, jr.1) (FSeg.recvSegment (c.ser v)) else pure st) (by
    rintro jr rem ⟨S1, q1⟩ f1 ⟨hsub, hI⟩
    have hmem := hsub jr List.mem_cons_self
    refine runsTo_givenBind (segOwner_eq hr _) ?_
    dsimp only
    have hnd := List.nodup_cons.mp hI.nodup
    have weaken : ∀ t ∈ f1.pending, ∃ κ, t.span.arr ∈ (S1 κ).ids ∧ (κ.1 ∈ W ∨ κ.1 = v ∧
        (c.me = κ.2 % c.nrank → t.inward = false) ∧ (c.me ≠ κ.2 % c.nrank → (κ.2, c.me) ∉ rem)) := by
      intro t ht
      obtain ⟨κ, h1, h2⟩ := hI.pend t ht
      refine ⟨κ, h1, ?_⟩
      rcases h2 with h | ⟨h3, h4, h5⟩
      · exact Or.inl h
      · exact Or.inr ⟨h3, h4, fun h => fun hr => h5 h (List.mem_cons_of_mem _ hr)⟩
    by_cases hsn : c.me = jr.1 % c.nrank ∧ c.me ≠ jr.2
    · rw [if_pos hsn]
      refine RunsTo.bind (Q := fun st f' => (∀ x ∈ rem, x ∈ pairs) ∧ BcastInv c v W S rem st f') ?_ ?_
      · refine RunsTo.bind (sendSegment_runs hI.ok (hI.good.seg (v, jr.1)) ((hI.later _).props (hs jr hmem hsn)) ?_) ?_
        · intro t ht hi ha
          obtain ⟨κ, h1, h2⟩ := hI.pend t ht
          have e := hI.good.same h1 ha
          subst e
          rcases h2 with h | ⟨_, h3, _⟩
          · exact hv h
          · have := h3 hsn.1
            rw [this] at hi
            simp at hi
        · rintro q f2 ⟨g1, g2, g3, g4⟩
          apply RunsTo.pure
          refine ⟨fun x hx => hsub x (List.mem_cons_of_mem _ hx), g1, hI.good.mono (by rw [g2]; exact fun e h => h), ?_, hI.later, hnd.2, ?_⟩
          · obtain ⟨new, n1, n2, _⟩ := g4.pend
            have := hI.reqs
            dsimp only at this ⊢
            rw [n1, List.map_append, this, n2]
          · obtain ⟨new, n1, _, n3⟩ := g4.pend
            intro t ht
            rw [n1, List.mem_append] at ht
            rcases ht with ht | ht
            · exact weaken t ht
            · exact ⟨(v, jr.1), (n3 t ht).2, Or.inr ⟨rfl, fun _ => (n3 t ht).1, fun h => absurd hsn.1 h⟩⟩
      · rintro st f2 h2
        rw [if_neg (fun h => hsn.2 h.1)]
        exact RunsTo.pure h2
    · rw [if_neg hsn]
      refine RunsTo.bind (Q := fun st f' => st = (S1, q1) ∧ f' = f1) (RunsTo.pure ⟨rfl, rfl⟩) ?_
      rintro _ f1 ⟨rfl, rfl⟩
      split
      · rename_i hrv
        unfold FSegs.modReq
        have hpr := hrc jr hmem hrv
        have hno : ∀ t ∈ f1.pending, t.span.arr ∉ (S1 (v, jr.1)).ids := by
          intro t ht ha
          obtain ⟨κ, h1, h2⟩ := hI.pend t ht
          have e := hI.good.same h1 ha
          subst e
          rcases h2 with h | ⟨_, _, h3⟩
          · exact hv h
          · refine h3 hrv.2 ?_
            have : (jr.1, c.me) = jr := by rw [hrv.1]
            dsimp only
            rw [this]
            exact List.mem_cons_self
        refine RunsTo.bind (recvSegment_runs hI.ok (hI.good.seg (v, jr.1)) ((hI.later _).props hpr.1) ((hI.later _).md hpr.2) hno) ?_
        rintro ⟨s', q⟩ f2 ⟨g1, g2⟩
        dsimp only at g1 g2 ⊢
        apply RunsTo.pure
        refine ⟨fun x hx => hsub x (List.mem_cons_of_mem _ hx), g1.moves.ok, hI.good.update hI.ok g1.moves g1.good, ?_, ?_, hnd.2, ?_⟩
        · obtain ⟨new, n1, n2, _⟩ := g1.adds.pend
          have := hI.reqs
          dsimp only at this ⊢
          rw [n1, List.map_append, this, n2]
        · intro κ
          dsimp only
          by_cases hne : κ = (v, jr.1)
          · subst hne; rw [Function.update_self]; exact (hI.later _).trans g2
          · rw [Function.update_of_ne hne]; exact hI.later κ
        · obtain ⟨new, n1, _, n3⟩ := g1.adds.pend
          intro t ht
          rw [n1, List.mem_append] at ht
          rcases ht with ht | ht
          · obtain ⟨κ, h1, h2⟩ := weaken t ht
            have hne : κ ≠ (v, jr.1) := by
              rintro rfl
              exact hno t ht h1
            exact ⟨κ, by dsimp only; rw [Function.update_of_ne hne]; exact h1, h2⟩
          · refine ⟨(v, jr.1), by dsimp only; rw [Function.update_self]; exact (n3 t ht).2, Or.inr ⟨rfl, fun h => absurd h hrv.2, fun _ => ?_⟩⟩
            have : (jr.1, c.me) = jr := by rw [hrv.1]
            dsimp only
            rw [this]
            exact hnd.1
      · exact RunsTo.pure ⟨fun x hx => hsub x (List.mem_cons_of_mem _ hx), hI.ok, hI.good, hI.reqs, hI.later, hnd.2, weaken⟩)
    pairs (S, reqs) f ⟨fun _ h => h, hok, hg, hq, fun _ => FSeg.Later.refl _, hn, fun t ht => by
      obtain ⟨κ, h1, h2⟩ := hp t ht
      exact ⟨κ, h1, Or.inl h2⟩⟩
  refine this.mono ?_
  rintro st f' ⟨_, hI⟩
  refine ⟨hI.ok, hI.good, hI.reqs, hI.later, ?_⟩
  intro t ht
  obtain ⟨κ, h1, h2⟩ := hI.pend t ht
  refine ⟨κ, h1, ?_⟩
  rcases h2 with h | ⟨h, _⟩
  · exact List.mem_cons_of_mem _ h
  · rw [h]; exact List.mem_cons_self

theorem waitall_rests {S : FSegs} {reqs : List Nat} {f : Flight} (hok : f.Ok) (hg : S.Good c f)
    (hq : f.pending.map Transfer.req = reqs) : RunsTo (waitall reqs) f (fun _ f' => AtRest c S f') :=
  runsTo_waitall hq ⟨⟨hok.live, by simp⟩, rfl, hg.mono (fun _ h => h)⟩

theorem forM_still {γ : Type} {p : γ → FlightM Unit} {f : Flight} :
    ∀ {l : List γ}, (∀ x ∈ l, RunsTo (p x) f (fun _ f' => f' = f)) → RunsTo (l.forM p) f (fun _ f' => f' = f)
  | [], _ => RunsTo.pure rfl
  | x :: l, h => by
    show RunsTo (p x >>= fun _ => l.forM p) f _
    refine (h x List.mem_cons_self).bind ?_
    rintro _ _ rfl
    exact forM_still (fun y hy => h y (List.mem_cons_of_mem _ hy))

include hr in
theorem bcastDecompress_runs (v : Nat) (pairs : List (Nat × Nat)) {S : FSegs} {f : Flight} (h : AtRest c S f)
    (hrc : ∀ jr ∈ pairs, IsReceiver c jr → (S (v, jr.1)).props.isSome) :
    RunsTo (bcastDecompress c v pairs S) f (fun _ f' => f' = f) := by
  unfold bcastDecompress
  refine forM_still ?_
  intro jr hjr
  refine runsTo_givenBind (segOwner_eq hr _) ?_
  split
  · rename_i hc
    exact decompress_runs h.pend (h.good.seg (v, jr.1)) (hrc jr hjr hc)
  · exact RunsTo.pure rfl

include hr in
theorem freeOthers_runs (v k : Nat) {S : FSegs} {f : Flight} (h : AtRest c S f) :
    RunsTo (freeOthers c v k S) f (Rests c S) := by
  unfold freeOthers
  refine (foldlM_rests (C := fun _ _ => True) (fun _ _ _ _ _ _ => trivial) ?_ h).mono (fun _ _ h => h.1)
  intro j _ S1 f1 h1
  refine runsTo_givenBind (segOwner_eq hr _) ?_
  split
  · exact RunsTo.pure ⟨rests_update h1.rest (segClear_good h1.rest.ok h1.rest.pend (h1.rest.good.seg _)), trivial⟩
  · exact RunsTo.pure ⟨Rests.refl h1.rest, trivial⟩

include hr in
theorem unionOwn_runs (v k : Nat) {S : FSegs} {f : Flight} (h : AtRest c S f) :
    RunsTo (unionOwn c v k S) f (Rests c S) := by
  unfold unionOwn
  refine (foldlM_rests (C := fun _ _ => True) (fun _ _ _ _ _ _ => trivial) ?_ h).mono (fun _ _ h => h.1)
  intro j _ S1 f1 h1
  refine runsTo_givenBind (segOwner_eq hr _) ?_
  split
  · exact mod_runs h1.rest (R := fun _ => True)
      ((union_runs h1.rest.ok h1.rest.pend (h1.rest.good.seg _)).mono (fun _ _ h => ⟨h, trivial⟩))
  · exact RunsTo.pure ⟨Rests.refl h1.rest, trivial⟩

include hr in
theorem reduceCompress_runs (v : Nat) (say : Say) (pairs : List (Nat × Nat)) {S : FSegs} {f : Flight} (h : AtRest c S f) :
    RunsTo (reduceCompress c v say pairs S) f (fun S' f' => Rests c S S' f' ∧
      ∀ ir ∈ pairs, IsReceiver c ir → (S' (v, ir.1)).props.isSome) := by
  unfold reduceCompress
  refine foldlM_rests (C := fun jr S' => IsReceiver c jr → (S' (v, jr.1)).props.isSome)
    (fun jr S1 S2 f1 h1 h2 h3 => (h1.later _).props (h2 h3)) ?_ h
  intro jr _ S1 f1 h1
  refine runsTo_givenBind (segOwner_eq hr _) ?_
  split
  · refine (mod_runs h1.rest (R := fun s => s.props.isSome)
      (compress_runs _ _ _ h1.rest.ok h1.rest.pend (h1.rest.good.seg _))).mono ?_
    rintro S' f' ⟨h2, h3⟩
    exact ⟨h2, fun _ => h3⟩
  · rename_i hc
    exact RunsTo.pure ⟨Rests.refl h1.rest, fun h => absurd ⟨h.2, h.1⟩ hc⟩

/-- How many of the pairs announce something for segment `i`. -/
def announced (c : FCfg) (i : Nat) (pairs : List (Nat × Nat)) : Nat :=
  pairs.countP (fun ir => decide (ir.1 = i ∧ c.me ≠ ir.2))

include hr in
theorem reduceMd_runs (v : Nat) (say : Say) (hm : c.ser v = true → ∀ j r, (say.heard (v, j) r).parts ≤ c.threads * 16) :
    ∀ (pairs : List (Nat × Nat)) {S : FSegs} {f : Flight}, AtRest c S f →
    (∀ ir ∈ pairs, IsReceiver c ir → (S (v, ir.1)).props.isSome) →
    RunsTo (reduceMd c v say pairs S) f (fun S' f' => f' = f ∧ AtRest c S' f' ∧ (∀ κ, (S' κ).props = (S κ).props) ∧
      ∀ i, c.me = i % c.nrank → (S' (v, i)).queued.length = (S (v, i)).queued.length + announced c i pairs)
  | [], S, f, h, _ => RunsTo.pure ⟨rfl, h, fun _ => rfl, fun _ _ => by simp [announced]⟩
  | ir :: pairs, S, f, h, hs => by
    unfold reduceMd
    rw [List.foldlM_cons]
    have hgood : ∀ md : Md, (c.ser v = true → md.parts ≤ c.threads * 16) →
        AtRest c (Function.update S (v, ir.1) { S (v, ir.1) with queued := md :: (S (v, ir.1)).queued }) f := by
      intro md hmd
      refine ⟨h.ok, h.pend, h.good.update h.ok (Moves.refl h.ok) ?_⟩
      have hg := h.good.seg (v, ir.1)
      refine ⟨hg.nodup, hg.bufs, ?_⟩
      intro hser m hm'
      dsimp only at hm'
      rw [List.mem_append, List.mem_cons] at hm'
      rcases hm' with h1 | rfl | h1
      · exact hg.mds hser m (List.mem_append.mpr (Or.inl h1))
      · exact hmd hser
      · exact hg.mds hser m (List.mem_append.mpr (Or.inr h1))
    refine RunsTo.bind (Q := fun S' f' => f' = f ∧ AtRest c S' f' ∧ (∀ κ, (S' κ).props = (S κ).props) ∧
      ∀ i, c.me = i % c.nrank → (S' (v, i)).queued.length = (S (v, i)).queued.length + announced c i [ir]) ?_ ?_
    · refine runsTo_givenBind (segOwner_eq hr _) ?_
      by_cases hc : c.me = ir.1 % c.nrank ∧ c.me ≠ ir.2
      · dsimp only
        rw [if_pos hc, if_neg (fun h => hc.2 h.2)]
        apply RunsTo.pure
        refine ⟨rfl, hgood _ (fun hser => hm hser _ _), ?_, ?_⟩
        · intro κ
          by_cases hne : κ = (v, ir.1)
          · subst hne; rw [Function.update_self]
          · rw [Function.update_of_ne hne]
        · intro i hi
          by_cases hne : ir.1 = i
          · subst hne
            rw [Function.update_self]
            simp [announced, hc.2]
          · rw [Function.update_of_ne (by intro e; injection e with _ e; exact hne e.symm)]
            simp [announced, hne]
      · dsimp only
        rw [if_neg hc]
        refine RunsTo.bind (Q := fun _ f' => f' = f) ?_ ?_
        · split
          · rename_i h2
            obtain ⟨b, hb⟩ := Option.isSome_iff_exists.mp (hs ir List.mem_cons_self ⟨h2.2, h2.1⟩)
            unfold FSeg.sendNnz
            rw [hb]
            exact RunsTo.pure rfl
          · exact RunsTo.pure rfl
        · rintro _ _ rfl
          apply RunsTo.pure
          refine ⟨rfl, h, fun _ => rfl, ?_⟩
          intro i hi
          have : ¬ (ir.1 = i ∧ c.me ≠ ir.2) := by
            rintro ⟨rfl, h2⟩
            exact hc ⟨hi, h2⟩
          simp only [announced, List.countP_singleton]
          rw [if_neg (by simpa using this)]
          rfl
    · rintro S1 _ ⟨rfl, h1, h2, h3⟩
      refine (reduceMd_runs v say hm pairs h1 (fun jr hjr hc => by rw [h2]; exact hs jr (List.mem_cons_of_mem _ hjr) hc)).mono ?_
      rintro S2 _ ⟨rfl, g1, g2, g3⟩
      refine ⟨rfl, g1, fun κ => (g2 κ).trans (h2 κ), ?_⟩
      intro i hi
      rw [g3 i hi, h3 i hi]
      simp only [announced, List.countP_cons, List.countP_nil]
      omega

/-- While partial results are sent. -/
structure ReduceInv (c : FCfg) (v : Nat) (rem : List (Nat × Nat)) (st : FSegs × List Nat) (f : Flight) : Prop where
  ok : f.Ok
  good : st.1.Good c f
  reqs : f.pending.map Transfer.req = st.2
  queue : ∀ i, c.me = i % c.nrank → announced c i rem ≤ (st.1 (v, i)).queued.length
  props : ∀ ir ∈ rem, IsReceiver c ir → (st.1 (v, ir.1)).props.isSome
  pend : ∀ t ∈ f.pending, ∃ i, t.span.arr ∈ (st.1 (v, i)).ids ∧
    (c.me = i % c.nrank → t.span.arr ∈ (st.1 (v, i)).received.flatMap FBuf.ids) ∧ (c.me ≠ i % c.nrank → t.inward = false)

include hr in
theorem reduceData_runs (v : Nat) (pairs : List (Nat × Nat)) {S : FSegs} {f : Flight} (h : AtRest c S f)
    (hq : ∀ i, c.me = i % c.nrank → announced c i pairs ≤ (S (v, i)).queued.length)
    (hs : ∀ ir ∈ pairs, IsReceiver c ir → (S (v, ir.1)).props.isSome) :
    RunsTo (reduceData c v pairs (S, [])) f (fun st f' => f'.Ok ∧ st.1.Good c f' ∧ f'.pending.map Transfer.req = st.2) := by
  unfold reduceData
  have := foldlM_runs (I := ReduceInv c v) (p := fun (st : FSegs × List Nat) (ir : Nat × Nat) => do
    let o ← given (segOwner c.nrank ir.1)
    let st ← (if c.me = o ∧ c.me ≠ ir.2 then
        st.1.modReq st.2 (v, ir.1) (FSeg.recvSegmentQueue c.threads (c.ser v))
      else pure st)
    if c.me ≠ o ∧ c.me = ir.2 then do
      let q ← (st.1 (v, ir.1)).sendSegment (c.ser v)
      pure (st.1, st.2 ++ q)
    else pure st) (by
    rintro ir rem ⟨S1, q1⟩ f1 hI
    refine runsTo_givenBind (segOwner_eq hr _) ?_
    dsimp only
    have hcnt : ∀ i, announced c i (ir :: rem) = announced c i rem + if ir.1 = i ∧ c.me ≠ ir.2 then 1 else 0 := by
      intro i
      simp only [announced, List.countP_cons, decide_eq_true_eq]
    by_cases hrv : c.me = ir.1 % c.nrank ∧ c.me ≠ ir.2
    · rw [if_pos hrv]
      refine RunsTo.bind (Q := ReduceInv c v rem) ?_ ?_
      · unfold FSegs.modReq
        have hlen : 0 < (S1 (v, ir.1)).queued.length := by
          have := hI.queue ir.1 hrv.1
          rw [hcnt, if_pos ⟨rfl, hrv.2⟩] at this
          dsimp only at this
          omega
        refine RunsTo.bind (recvQueueFlight_runs hI.ok (hI.good.seg (v, ir.1)) hlen ?_) ?_
        · intro t ht ha
          obtain ⟨i, h1, h2, _⟩ := hI.pend t ht
          have e := hI.good.same h1 ha
          injection e with _ e
          subst e
          exact h2 hrv.1
        · rintro ⟨s', q⟩ f2 ⟨g1, g2, g3, g4, g5⟩
          dsimp only at g1 g2 g3 g4 g5 ⊢
          apply RunsTo.pure
          refine ⟨g1.ok, hI.good.update hI.ok g1 g2, ?_, ?_, ?_, ?_⟩
          · obtain ⟨new, n1, n2, _⟩ := g3.pend
            have := hI.reqs
            dsimp only at this ⊢
            rw [n1, List.map_append, this, n2]
          · intro i hi
            have := hI.queue i hi
            rw [hcnt] at this
            dsimp only at this ⊢
            by_cases hne : ir.1 = i
            · subst hne
              rw [if_pos ⟨rfl, hrv.2⟩] at this
              rw [Function.update_self]
              omega
            · rw [Function.update_of_ne (by intro e; injection e with _ e; exact hne e.symm)]
              omega
          · intro jr hjr hc
            dsimp only
            rw [Function.update_of_ne (by
              intro e
              injection e with _ e
              exact hc.2 (by rw [e]; exact hrv.1))]
            exact hI.props jr (List.mem_cons_of_mem _ hjr) hc
          · obtain ⟨new, n1, _, n3⟩ := g3.pend
            have hin : ∀ a ∈ s'.received.flatMap FBuf.ids, a ∈ s'.ids := by
              intro a ha
              obtain ⟨d, hd, ha⟩ := List.mem_flatMap.mp ha
              exact FSeg.mem_ids (by simp [FSeg.bufs, hd]) ha
            intro t ht
            rw [n1, List.mem_append] at ht
            dsimp only
            rcases ht with ht | ht
            · obtain ⟨i, h1, h2, h3⟩ := hI.pend t ht
              by_cases hne : ir.1 = i
              · subst hne
                have h4 := g4 _ (h2 hrv.1)
                refine ⟨ir.1, ?_, ?_, fun h => absurd hrv.1 h⟩
                · rw [Function.update_self]
                  exact hin _ h4
                · intro _
                  rw [Function.update_self]
                  exact h4
              · refine ⟨i, ?_⟩
                rw [Function.update_of_ne (by intro e; injection e with _ e; exact hne e.symm)]
                exact ⟨h1, h2, h3⟩
            · refine ⟨ir.1, ?_, ?_, fun h => absurd hrv.1 h⟩
              · rw [Function.update_self]
                exact hin _ (n3 t ht).2
              · intro _
                rw [Function.update_self]
                exact (n3 t ht).2
      · intro st f2 h2
        rw [if_neg (fun h => h.1 hrv.1)]
        exact RunsTo.pure h2
    · rw [if_neg hrv]
      refine RunsTo.bind (Q := fun st f' => st = (S1, q1) ∧ f' = f1) (RunsTo.pure ⟨rfl, rfl⟩) ?_
      rintro _ f1 ⟨rfl, rfl⟩
      have hqueue : ∀ i, c.me = i % c.nrank → announced c i rem ≤ (S1 (v, i)).queued.length := by
        intro i hi
        have := hI.queue i hi
        rw [hcnt] at this
        dsimp only at this
        omega
      split
      · rename_i hsn
        refine RunsTo.bind (sendSegment_runs hI.ok (hI.good.seg (v, ir.1)) (hI.props ir List.mem_cons_self ⟨hsn.2, hsn.1⟩) ?_) ?_
        · intro t ht hi ha
          obtain ⟨i, h1, _, h3⟩ := hI.pend t ht
          have e := hI.good.same h1 ha
          injection e with _ e
          subst e
          rw [h3 hsn.1] at hi
          simp at hi
        · rintro q f2 ⟨g1, g2, g3, g4⟩
          apply RunsTo.pure
          refine ⟨g1, hI.good.mono (by rw [g2]; exact fun e h => h), ?_, hqueue, fun jr hjr => hI.props jr (List.mem_cons_of_mem _ hjr), ?_⟩
          · obtain ⟨new, n1, n2, _⟩ := g4.pend
            have := hI.reqs
            dsimp only at this ⊢
            rw [n1, List.map_append, this, n2]
          · obtain ⟨new, n1, _, n3⟩ := g4.pend
            intro t ht
            rw [n1, List.mem_append] at ht
            rcases ht with ht | ht
            · exact hI.pend t ht
            · exact ⟨ir.1, (n3 t ht).2, fun h => absurd h hsn.1, fun _ => (n3 t ht).1⟩
      · exact RunsTo.pure ⟨hI.ok, hI.good, hI.reqs, hqueue, fun jr hjr => hI.props jr (List.mem_cons_of_mem _ hjr), hI.pend⟩)
    pairs (S, []) f ⟨h.ok, h.good, by rw [h.pend]; rfl, hq, hs, by rw [h.pend]; simp⟩
  exact this.mono (fun st f' hI => ⟨hI.ok, hI.good, hI.reqs⟩)

include hr in
theorem flightReduce_runs (y nty : Nat) (say : Say) (rows : List (Nat × Nat)) {S : FSegs} {f : Flight} (h : AtRest c S f)
    (hm : c.ser y = true → ∀ j r, (say.heard (y, j) r).parts ≤ c.threads * 16) :
    RunsTo (flightReduce c y nty say rows S) f (fun S' f' => AtRest c S' f') := by
  unfold flightReduce
  refine (reduceCompress_runs hr y say rows h).bind ?_
  rintro S1 f1 ⟨h1, h2⟩
  refine (reduceMd_runs hr y say hm rows h1.rest h2).bind ?_
  rintro S2 f2 ⟨_, g1, g2, g3⟩
  refine (reduceData_runs hr y rows g1 (fun i hi => by rw [g3 i hi]; omega) (fun ir hir hc => by rw [g2]; exact h2 ir hir hc)).bind ?_
  rintro ⟨S3, reqs⟩ f3 ⟨k1, k2, k3⟩
  dsimp only at k1 k2 k3 ⊢
  refine (waitall_rests k1 k2 k3).bind ?_
  rintro _ f4 h4
  refine (freeOthers_runs hr y nty h4).bind ?_
  rintro S5 f5 h5
  exact (unionOwn_runs hr y nty h5.rest).mono (fun _ _ h => h.rest)

variable {E : Type}

/-- A matrix whose tile table is complete. -/
structure RMat.Table (M : RMat E) (k : Nat) (ow : Nat → Nat → Nat) : Prop where
  ntx : M.ntx = k
  nty : M.nty = k
  node : ∀ i j, i < k → j < k → M.node i j = some (ow i j)

theorem flightTiles_runs {M : RMat E} {k : Nat} {ow : Nat → Nat → Nat} (hM : M.Table k ow) {p : Nat → Nat → FSegs → FlightM FSegs}
    (hp : ∀ i j S f, AtRest c S f → RunsTo (p i j S) f (fun S' f' => AtRest c S' f')) {S : FSegs} {f : Flight} (h : AtRest c S f) :
    RunsTo (M.flightTiles c p S) f (fun S' f' => AtRest c S' f') := by
  unfold RMat.flightTiles
  rw [hM.ntx, hM.nty]
  have inner : ∀ i < k, ∀ (l : List Nat) S f, ((∀ j ∈ l, j < k) ∧ AtRest c S f) →
      RunsTo (l.foldlM (fun S j => do
        let o ← given (M.node i j)
        if c.me = o then p i j S else pure S) S) f (fun S' f' => AtRest c S' f') := by
    intro i hi l S f h
    refine (foldlM_runs (I := fun l S f => (∀ j ∈ l, j < k) ∧ AtRest c S f) ?_ l S f h).mono (fun _ _ h => h.2)
    rintro j l S f ⟨h1, h2⟩
    refine runsTo_givenBind (hM.node i j hi (h1 j List.mem_cons_self)) ?_
    split
    · exact (hp i j S f h2).mono (fun _ _ h => ⟨fun x hx => h1 x (List.mem_cons_of_mem _ hx), h⟩)
    · exact RunsTo.pure ⟨fun x hx => h1 x (List.mem_cons_of_mem _ hx), h2⟩
  refine (foldlM_runs (I := fun l S f => (∀ i ∈ l, i < k) ∧ AtRest c S f) ?_ (List.range k) S f
    ⟨fun i hi => List.mem_range.mp hi, h⟩).mono (fun _ _ h => h.2)
  rintro i l S f ⟨h1, h2⟩
  refine (inner i (h1 i List.mem_cons_self) (List.range k) S f ⟨fun j hj => List.mem_range.mp hj, h2⟩).mono ?_
  exact fun _ _ h => ⟨fun x hx => h1 x (List.mem_cons_of_mem _ hx), h⟩

theorem fillTile_runs {S : FSegs} {f : Flight} (y i nnz : Nat) (h : AtRest c S f) :
    RunsTo (S.mod (y, i) (FSeg.fill c.threads nnz)) f (fun S' f' => AtRest c S' f') :=
  (mod_runs h (R := fun _ => True) ((fill_runs nnz h.ok h.pend (h.good.seg _)).mono (fun _ _ h => ⟨h, trivial⟩))).mono
    (fun _ _ h => h.1.rest)

include hr in
theorem flightSpmspv_runs {M : RMat E} {k : Nat} {ow : Nat → Nat → Nat} (hM : M.Table k ow) (x y : Nat) (say : Say) {S : FSegs}
    {f : Flight} (h : AtRest c S f) (hm : ∀ v j r, c.ser v = true → (say.heard (v, j) r).parts ≤ c.threads * 16) :
    RunsTo (M.flightSpmspv c x y say S) f (fun S' f' => AtRest c S' f') := by
  unfold RMat.flightSpmspv
  obtain ⟨cols, c1, c2, _⟩ := rankPairs_spec (k := k) (S := colS k ow) (fun j hj => colRanks_eq hM.nty hM.node hj) (fun j => (rankSet_spec _).1)
  obtain ⟨rows, r1, _, _⟩ := rankPairs_spec (k := k) (S := rowS k ow) (fun j hj => rowRanks_eq hM.ntx hM.node hj) (fun j => (rankSet_spec _).1)
  rw [hM.ntx, hM.nty, c1, r1]
  refine runsTo_givenBind rfl ?_
  refine runsTo_givenBind rfl ?_
  refine (bcastCompress_runs hr x say _ h).bind ?_
  rintro S1 f1 ⟨a1, a2⟩
  refine (bcastMd_runs hr x say _ a1.rest a2 (fun hs j r => hm x j r hs)).bind ?_
  rintro S2 f2 ⟨b1, b2⟩
  refine (bcastData_runs hr x [] (by simp) _ c2 b1.rest.ok b1.rest.good (by rw [b1.rest.pend]; rfl) (by rw [b1.rest.pend]; simp)
    (fun jr hjr hc => (b1.later _).props (a2 jr hjr hc)) b2).bind ?_
  rintro ⟨S3, reqs⟩ f3 ⟨d1, d2, d3, d4, _⟩
  dsimp only at d1 d2 d3 d4 ⊢
  refine (waitall_rests d1 d2 d3).bind ?_
  rintro _ f4 h4
  refine (bcastDecompress_runs hr x _ h4 (fun jr hjr hc => (d4 _).props (b2 jr hjr hc).1)).bind ?_
  rintro _ _ rfl
  refine (flightTiles_runs hM ?_ h4).bind ?_
  · intro i j S f h
    refine (look_runs h.pend (h.good.seg (x, j))).bind ?_
    rintro _ _ rfl
    exact fillTile_runs y i _ h
  rintro S5 f5 h5
  refine (freeOthers_runs hr x k h5).bind ?_
  rintro S6 f6 h6
  exact flightReduce_runs hr y k say _ h6.rest (fun hs j r => hm y j r hs)

include hr in
theorem flightSpmspv3_runs {M : RMat E} {k : Nat} {ow : Nat → Nat → Nat} (hM : M.Table k ow) (x vp y : Nat) (hxv : x ≠ vp) (say : Say)
    {S : FSegs} {f : Flight} (h : AtRest c S f) (hm : ∀ v j r, c.ser v = true → (say.heard (v, j) r).parts ≤ c.threads * 16) :
    RunsTo (M.flightSpmspv3 c x vp y say S) f (fun S' f' => AtRest c S' f') := by
  unfold RMat.flightSpmspv3
  obtain ⟨cols, c1, c2, _⟩ := rankPairs_spec (k := k) (S := colS k ow) (fun j hj => colRanks_eq hM.nty hM.node hj) (fun j => (rankSet_spec _).1)
  obtain ⟨rows, r1, r2, _⟩ := rankPairs_spec (k := k) (S := rowS k ow) (fun j hj => rowRanks_eq hM.ntx hM.node hj) (fun j => (rankSet_spec _).1)
  rw [hM.ntx, hM.nty, c1, r1]
  refine runsTo_givenBind rfl ?_
  refine runsTo_givenBind rfl ?_
  refine (bcastCompress_runs hr x say _ h).bind ?_
  rintro S1 f1 ⟨a1, a2⟩
  refine (bcastCompress_runs hr vp say _ a1.rest).bind ?_
  rintro S1' f1' ⟨a1', a2'⟩
  have a2x := fun jr hjr hc => (a1'.later (x, jr.1)).props (a2 jr hjr hc)
  refine (bcastMd_runs hr x say _ a1'.rest a2x (fun hs j r => hm x j r hs)).bind ?_
  rintro S2 f2 ⟨b1, b2⟩
  have a2v := fun jr hjr hc => (b1.later (vp, jr.1)).props (a2' jr hjr hc)
  refine (bcastMd_runs hr vp say _ b1.rest a2v (fun hs j r => hm vp j r hs)).bind ?_
  rintro S2' f2' ⟨b1', b2'⟩
  refine (bcastData_runs hr x [] (by simp) _ c2 b1'.rest.ok b1'.rest.good (by rw [b1'.rest.pend]; rfl) (by rw [b1'.rest.pend]; simp)
    (fun jr hjr hc => (b1'.later _).props ((b1.later _).props (a2x jr hjr hc)))
    (fun jr hjr hc => ⟨(b1'.later _).props (b2 jr hjr hc).1, (b1'.later _).md (b2 jr hjr hc).2⟩)).bind ?_
  rintro ⟨S3, reqs⟩ f3 ⟨d1, d2, d3, d4, d5⟩
  dsimp only at d1 d2 d3 d4 d5 ⊢
  refine (bcastData_runs hr vp [x] (by simp; exact fun h => hxv h.symm) _ r2 d1 d2 d3 d5
    (fun jr hjr hc => (d4 _).props ((b1'.later _).props (a2v jr hjr hc)))
    (fun jr hjr hc => ⟨(d4 _).props (b2' jr hjr hc).1, (d4 _).md (b2' jr hjr hc).2⟩)).bind ?_
  rintro ⟨S4, reqs'⟩ f4 ⟨e1, e2, e3, e4, _⟩
  dsimp only at e1 e2 e3 e4 ⊢
  refine (waitall_rests e1 e2 e3).bind ?_
  rintro _ f5 h5
  refine (bcastDecompress_runs hr x _ h5 (fun jr hjr hc => (e4 _).props ((d4 _).props ((b1'.later _).props (b2 jr hjr hc).1)))).bind ?_
  rintro _ _ rfl
  refine (bcastDecompress_runs hr vp _ h5 (fun jr hjr hc => (e4 _).props ((d4 _).props (b2' jr hjr hc).1))).bind ?_
  rintro _ _ rfl
  refine (flightTiles_runs hM ?_ h5).bind ?_
  · intro i j S f h
    refine (look_runs h.pend (h.good.seg (x, j))).bind ?_
    rintro _ _ rfl
    refine (look_runs h.pend (h.good.seg (vp, i))).bind ?_
    rintro _ _ rfl
    exact fillTile_runs y i _ h
  rintro S6 f6 h6
  refine (freeOthers_runs hr x k h6).bind ?_
  rintro S7 f7 h7
  refine (freeOthers_runs hr vp k h7.rest).bind ?_
  rintro S8 f8 h8
  exact flightReduce_runs hr y k say _ h8.rest (fun hs j r => hm y j r hs)

include hr in
theorem flightApplyEdges_runs {M : RMat E} {k : Nat} {ow : Nat → Nat → Nat} (hM : M.Table k ow) (vp : Nat) (say : Say) {S : FSegs}
    {f : Flight} (h : AtRest c S f) (hm : ∀ v j r, c.ser v = true → (say.heard (v, j) r).parts ≤ c.threads * 16) :
    RunsTo (M.flightApplyEdges c vp say S) f (fun S' f' => AtRest c S' f') := by
  unfold RMat.flightApplyEdges
  obtain ⟨cols, c1, c2, _⟩ := rankPairs_spec (k := k) (S := rowcolS k ow) (fun j hj => rowcolRanks_eq hM.ntx hM.nty hM.node hj)
    (fun j => (rankSet_spec _).1)
  rw [hM.ntx, c1]
  refine runsTo_givenBind rfl ?_
  refine (bcastCompress_runs hr vp say _ h).bind ?_
  rintro S1 f1 ⟨a1, a2⟩
  refine (bcastMd_runs hr vp say _ a1.rest a2 (fun hs j r => hm vp j r hs)).bind ?_
  rintro S2 f2 ⟨b1, b2⟩
  refine (bcastData_runs hr vp [] (by simp) _ c2 b1.rest.ok b1.rest.good (by rw [b1.rest.pend]; rfl) (by rw [b1.rest.pend]; simp)
    (fun jr hjr hc => (b1.later _).props (a2 jr hjr hc)) b2).bind ?_
  rintro ⟨S3, reqs⟩ f3 ⟨d1, d2, d3, d4, _⟩
  dsimp only at d1 d2 d3 d4 ⊢
  refine (waitall_rests d1 d2 d3).bind ?_
  rintro _ f4 h4
  refine (bcastDecompress_runs hr vp _ h4 (fun jr hjr hc => (d4 _).props (b2 jr hjr hc).1)).bind ?_
  rintro _ _ rfl
  refine (flightTiles_runs hM ?_ h4).bind ?_
  · intro i j S f h
    refine (look_runs h.pend (h.good.seg (vp, j))).bind ?_
    rintro _ _ rfl
    refine (look_runs h.pend (h.good.seg (vp, i))).bind ?_
    rintro _ _ rfl
    exact RunsTo.pure h
  rintro S5 f5 h5
  exact (freeOthers_runs hr vp k h5).mono (fun _ _ h => h.rest)

end ops

end GraphMat

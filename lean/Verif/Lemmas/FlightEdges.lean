import Verif.Lemmas.FlightOps
import Verif.Lemmas.EdgeList
import Verif.Lemmas.Keyed

/-! # Lemmas about arrays and transfers: exchange of edges -/
namespace GraphMat

/-- Since `f0` the arrays `L` have been made, and older ones are untouched. -/
structure Owns (f0 : Flight) (L : List (Nat × Nat)) (f : Flight) : Prop where
  ok0 : f0.Ok
  ok : f.Ok
  next : f0.next ≤ f.next
  keep : ∀ e ∈ f0.live, e ∈ f.live
  nodup : (L.map Prod.fst).Nodup
  live : ∀ e ∈ L, e ∈ f.live ∧ f0.next ≤ e.1

theorem Owns.start {f : Flight} (h : f.Ok) : Owns f [] f := ⟨h, h, Nat.le_refl _, fun _ h => h, by simp, by simp⟩

theorem Owns.perm {f0 f : Flight} {L L' : List (Nat × Nat)} (h : Owns f0 L f) (hp : L.Perm L') : Owns f0 L' f :=
  ⟨h.ok0, h.ok, h.next, h.keep, (hp.map _).nodup_iff.mp h.nodup, fun e he => h.live e (hp.mem_iff.mpr he)⟩

theorem Owns.key {f0 f : Flight} {L : List (Nat × Nat)} (h : Owns f0 L f) {e : Nat × Nat} (he : e ∈ L) : e.1 < f.next :=
  h.ok.live e (h.live e he).1

theorem owns_new {f0 f : Flight} {L : List (Nat × Nat)} (n : Nat) (h : Owns f0 L f) :
    RunsTo (newArray n) f (fun a f' => Owns f0 ((a, n) :: L) f' ∧ f'.pending = f.pending ∧ f.next ≤ a) := by
  refine runsTo_newArray ⟨⟨h.ok0, ⟨?_, ?_⟩, ?_, ?_, ?_, ?_⟩, rfl, Nat.le_refl _⟩
  · intro e he
    rcases List.mem_cons.mp he with rfl | he
    · dsimp only; omega
    · have := h.ok.live e he
      dsimp only; omega
  · intro t ht
    have := h.ok.pend t ht
    dsimp only; omega
  · have := h.next
    dsimp only; omega
  · exact fun e he => List.mem_cons_of_mem _ (h.keep e he)
  · rw [List.map_cons, List.nodup_cons]
    refine ⟨?_, h.nodup⟩
    intro hm
    obtain ⟨e, he, hk⟩ := List.mem_map.mp hm
    have := h.key he
    dsimp only at hk
    omega
  · intro e he
    rcases List.mem_cons.mp he with rfl | he
    · exact ⟨List.mem_cons_self, h.next⟩
    · exact ⟨List.mem_cons_of_mem _ (h.live e he).1, (h.live e he).2⟩

theorem owns_read {f0 f : Flight} {L : List (Nat × Nat)} {a : Nat} (n : Nat) (h : Owns f0 L f) (hm : (a, n) ∈ L)
    (hp : ∀ t ∈ f.pending, t.inward = false) : RunsTo (readArray a) f (fun _ f' => f' = f) :=
  runsTo_readArray (h.live _ hm).1 (fun t ht hi => by rw [hp t ht] at hi; simp at hi) rfl

theorem owns_write {f0 f : Flight} {L : List (Nat × Nat)} {a : Nat} (n : Nat) (h : Owns f0 L f) (hm : (a, n) ∈ L)
    (hp : f.pending = []) : RunsTo (writeArray a) f (fun _ f' => f' = f) :=
  runsTo_writeArray (h.live _ hm).1 (by rw [hp]; simp) rfl

theorem owns_delete {f0 f : Flight} {P Q : List (Nat × Nat)} {a n : Nat} (h : Owns f0 (P ++ (a, n) :: Q) f) (hp : f.pending = []) :
    RunsTo (deleteArray a) f (fun _ f' => Owns f0 (P ++ Q) f' ∧ f'.pending = []) := by
  have hm : (a, n) ∈ P ++ (a, n) :: Q := by simp
  refine runsTo_deleteArray (h.live _ hm).1 (by rw [hp]; simp) ⟨⟨h.ok0, ⟨?_, ?_⟩, h.next, ?_, ?_, ?_⟩, hp⟩
  · exact fun e he => h.ok.live e (List.mem_filter.mp he).1
  · exact h.ok.pend
  · intro e he
    rw [List.mem_filter]
    refine ⟨h.keep e he, ?_⟩
    have h1 := (h.live _ hm).2
    have h2 := h.ok0.live e he
    simp only [decide_eq_true_eq]
    rintro rfl
    dsimp only at h1
    omega
  · have := h.nodup
    rw [List.map_append, List.map_cons] at this
    rw [List.map_append]
    exact this.sublist (List.Sublist.append_left (List.sublist_cons_self _ _) _)
  · intro e he
    have hin : e ∈ P ++ (a, n) :: Q := by
      rw [List.mem_append, List.mem_cons]
      rcases List.mem_append.mp he with h | h
      · exact Or.inl h
      · exact Or.inr (Or.inr h)
    refine ⟨?_, (h.live e hin).2⟩
    rw [List.mem_filter]
    refine ⟨(h.live e hin).1, ?_⟩
    simp only [decide_eq_true_eq]
    intro hk
    have hnd := h.nodup
    rw [List.map_append, List.map_cons, List.nodup_append, List.nodup_cons] at hnd
    obtain ⟨_, ⟨h1, _⟩, h3⟩ := hnd
    rcases List.mem_append.mp he with h | h
    · exact h3 e.1 (List.mem_map.mpr ⟨e, h, rfl⟩) a List.mem_cons_self hk
    · exact h1 (List.mem_map.mpr ⟨e, h, hk⟩)

theorem mapM_isend {γ : Type} {p : γ → Span} :
    ∀ {l : List γ} {f : Flight}, f.Ok → (∀ x ∈ l, ∃ n, ((p x).arr, n) ∈ f.live ∧ (p x).lo + (p x).len ≤ n) →
    (∀ t ∈ f.pending, t.inward = false) →
    RunsTo (l.mapM (fun x => isend (p x))) f (fun q f' => f'.Ok ∧ f'.live = f.live ∧ f'.next = f.next ∧
      ∃ new, f'.pending = f.pending ++ new ∧ new.map Transfer.req = q ∧ ∀ t ∈ new, t.inward = false ∧ ∃ x ∈ l, t.span = p x)
  | [], f, hf, _, _ => by
    rw [List.mapM_nil]
    exact RunsTo.pure ⟨hf, rfl, rfl, [], by simp, rfl, by simp⟩
  | x :: l, f, hf, hl, hp => by
    rw [List.mapM_cons]
    obtain ⟨n, h1, h2⟩ := hl x List.mem_cons_self
    refine RunsTo.bind (runsTo_isend (Q := fun q f' => q = f.nextReq ∧ f' = { f with
        nextReq := f.nextReq + 1, pending := f.pending ++ [⟨f.nextReq, false, p x⟩] }) h1 h2
      (fun t ht hi => by rw [hp t ht] at hi; simp at hi) ⟨rfl, rfl⟩) ?_
    rintro _ _ ⟨rfl, rfl⟩
    refine RunsTo.bind (mapM_isend (l := l) ⟨hf.live, ?_⟩ (fun y hy => hl y (List.mem_cons_of_mem _ hy)) ?_) ?_
    · intro t ht
      rcases List.mem_append.mp ht with ht | ht
      · exact hf.pend t ht
      · rw [List.mem_singleton] at ht
        rw [ht]
        exact hf.key h1
    · intro t ht
      rcases List.mem_append.mp ht with ht | ht
      · exact hp t ht
      · rw [List.mem_singleton] at ht
        rw [ht]
    · rintro q f' ⟨g1, g2, g3, new, g4, g5, g6⟩
      apply RunsTo.pure
      refine ⟨g1, g2, g3, ⟨f.nextReq, false, p x⟩ :: new, by rw [g4]; simp, by rw [List.map_cons, g5], ?_⟩
      intro t ht
      rcases List.mem_cons.mp ht with rfl | ht
      · exact ⟨rfl, x, List.mem_cons_self, rfl⟩
      · obtain ⟨h3, y, hy, h4⟩ := g6 t ht
        exact ⟨h3, y, List.mem_cons_of_mem _ hy, h4⟩

theorem mapM_irecv {γ : Type} {p : γ → Span} :
    ∀ {l : List γ} {f : Flight}, f.Ok → (∀ x ∈ l, ∃ n, ((p x).arr, n) ∈ f.live ∧ (p x).lo + (p x).len ≤ n) →
    (∀ t ∈ f.pending, ∀ x ∈ l, ¬ t.span.Meets (p x)) → l.Pairwise (fun x y => ¬ (p x).Meets (p y)) →
    RunsTo (l.mapM (fun x => irecv (p x))) f (fun q f' => f'.Ok ∧ f'.live = f.live ∧ f'.next = f.next ∧
      ∃ new, f'.pending = f.pending ++ new ∧ new.map Transfer.req = q)
  | [], f, hf, _, _, _ => by
    rw [List.mapM_nil]
    exact RunsTo.pure ⟨hf, rfl, rfl, [], by simp, rfl⟩
  | x :: l, f, hf, hl, hp, hd => by
    rw [List.mapM_cons]
    rw [List.pairwise_cons] at hd
    obtain ⟨n, h1, h2⟩ := hl x List.mem_cons_self
    refine RunsTo.bind (runsTo_irecv (Q := fun q f' => q = f.nextReq ∧ f' = { f with
        nextReq := f.nextReq + 1, pending := f.pending ++ [⟨f.nextReq, true, p x⟩] }) h1 h2
      (fun t ht => hp t ht x List.mem_cons_self) ⟨rfl, rfl⟩) ?_
    rintro _ _ ⟨rfl, rfl⟩
    refine RunsTo.bind (mapM_irecv (l := l) ⟨hf.live, ?_⟩ (fun y hy => hl y (List.mem_cons_of_mem _ hy)) ?_ hd.2) ?_
    · intro t ht
      rcases List.mem_append.mp ht with ht | ht
      · exact hf.pend t ht
      · rw [List.mem_singleton] at ht
        rw [ht]
        exact hf.key h1
    · intro t ht y hy
      rcases List.mem_append.mp ht with ht | ht
      · exact hp t ht y (List.mem_cons_of_mem _ hy)
      · rw [List.mem_singleton] at ht
        rw [ht]
        exact hd.1 y hy
    · rintro q f' ⟨g1, g2, g3, new, g4, g5⟩
      apply RunsTo.pure
      exact ⟨g1, g2, g3, ⟨f.nextReq, true, p x⟩ :: new, by rw [g4]; simp, by rw [List.map_cons, g5]⟩

theorem Owns.same {f0 f f' : Flight} {L : List (Nat × Nat)} (h : Owns f0 L f) (hok : f'.Ok) (hl : f'.live = f.live)
    (hn : f'.next = f.next) : Owns f0 L f' :=
  ⟨h.ok0, hok, by rw [hn]; exact h.next, by rw [hl]; exact h.keep, h.nodup, by rw [hl]; exact h.live⟩

theorem recvStart_succ (heard : Nat → Nat) (i : Nat) : recvStart heard (i + 1) = recvStart heard i + heard i := by
  unfold recvStart
  rw [List.range_succ, List.map_append, List.sum_append]
  simp

theorem recvStart_mono (heard : Nat → Nat) {i j : Nat} (h : i ≤ j) : recvStart heard i ≤ recvStart heard j := by
  induction j with
  | zero => rw [Nat.le_zero.mp h]
  | succ j ih =>
    rcases Nat.lt_or_ge i (j + 1) with h1 | h1
    · rw [recvStart_succ]
      have := ih (by omega)
      omega
    · rw [show i = j + 1 by omega]

theorem parts_pairwise {a : Nat} {start len : Nat → Nat} (h : ∀ i j, i < j → start i + len i ≤ start j) (n : Nat) :
    (List.range n).Pairwise (fun i j => ¬ (⟨a, start i, len i⟩ : Span).Meets ⟨a, start j, len j⟩) := by
  refine List.pairwise_lt_range.imp ?_
  rintro i j hij ⟨_, hm⟩
  have := h i j hij
  dsimp only at hm
  omega

theorem exchangeCounts_runs {f0 f : Flight} {L : List (Nat × Nat)} {nrank a b : Nat} (h : Owns f0 L f) (hp : f.pending = [])
    (ha : (a, nrank) ∈ L) (hb : (b, nrank) ∈ L) (hab : a ≠ b) :
    RunsTo (exchangeCounts nrank a b) f (fun _ f' => Owns f0 L f' ∧ f'.pending = []) := by
  unfold exchangeCounts
  refine RunsTo.bind (mapM_isend (p := fun i => ⟨a, i, 1⟩) h.ok ?_ (by rw [hp]; simp)) ?_
  · intro i hi
    exact ⟨nrank, (h.live _ ha).1, by have := List.mem_range.mp hi; dsimp only; omega⟩
  rintro q1 f1 ⟨g1, g2, g3, new1, g4, g5, g6⟩
  rw [hp, List.nil_append] at g4
  have h1 := h.same g1 g2 g3
  refine RunsTo.bind (mapM_irecv (p := fun i => ⟨b, i, 1⟩) g1 ?_ ?_ (parts_pairwise (start := fun i => i) (len := fun _ => 1)
    (fun i j hij => hij) nrank)) ?_
  · intro i hi
    exact ⟨nrank, (h1.live _ hb).1, by have := List.mem_range.mp hi; dsimp only; omega⟩
  · intro t ht x _
    rw [g4] at ht
    obtain ⟨_, y, _, h3⟩ := g6 t ht
    apply Span.not_meets
    rw [h3]
    exact hab
  rintro q2 f2 ⟨k1, k2, k3, new2, k4, k5⟩
  refine runsTo_waitall (by rw [k4, g4, List.map_append, g5, k5]) ?_
  have h2 := h1.same k1 k2 k3
  exact ⟨h2.same ⟨k1.live, by simp⟩ rfl rfl, rfl⟩

/-- The two ends of the exchange of edges. -/
theorem sendEdges_runs {γ : Type} {p : γ → Span} {f0 f : Flight} {L : List (Nat × Nat)} {l : List γ} (h : Owns f0 L f) (hp : f.pending = [])
    (hl : ∀ x ∈ l, ∃ n, ((p x).arr, n) ∈ L ∧ (p x).lo + (p x).len ≤ n) :
    RunsTo (l.mapM (fun x => isend (p x))) f (fun q f' => Owns f0 L f' ∧ f'.pending.map Transfer.req = q ∧
      ∀ t ∈ f'.pending, t.inward = false ∧ t.span.arr < f'.next ∧ ∃ x ∈ l, t.span = p x) := by
  refine (mapM_isend h.ok (fun x hx => ?_) (by rw [hp]; simp)).mono ?_
  · obtain ⟨n, h1, h2⟩ := hl x hx
    exact ⟨n, (h.live _ h1).1, h2⟩
  rintro q f' ⟨g1, g2, g3, new, g4, g5, g6⟩
  rw [hp, List.nil_append] at g4
  refine ⟨h.same g1 g2 g3, by rw [g4, g5], ?_⟩
  intro t ht
  refine ⟨(g6 t (by rw [← g4]; exact ht)).1, g1.pend t ht, (g6 t (by rw [← g4]; exact ht)).2⟩

theorem recvEdges_runs {f0 f : Flight} {L : List (Nat × Nat)} {a nrank : Nat} {heard : Nat → Nat} {qs : List Nat} (h : Owns f0 L f)
    (hq : f.pending.map Transfer.req = qs) (ha : (a, recvStart heard nrank) ∈ L) (hp : ∀ t ∈ f.pending, t.span.arr ≠ a) :
    RunsTo (do
      let b ← (List.range nrank).mapM (fun i => irecv ⟨a, recvStart heard i, heard i⟩)
      waitall (qs ++ b)) f (fun _ f' => Owns f0 L f' ∧ f'.pending = []) := by
  refine RunsTo.bind (mapM_irecv (p := fun i => ⟨a, recvStart heard i, heard i⟩) h.ok ?_ ?_
    (parts_pairwise (start := recvStart heard) (len := heard) ?_ nrank)) ?_
  · intro i hi
    refine ⟨_, (h.live _ ha).1, ?_⟩
    have h1 := recvStart_mono heard (show i + 1 ≤ nrank from List.mem_range.mp hi)
    rw [recvStart_succ] at h1
    exact h1
  · intro t ht x _
    exact Span.not_meets (hp t ht)
  · intro i j hij
    have h1 := recvStart_mono heard (show i + 1 ≤ j from hij)
    rw [recvStart_succ] at h1
    exact h1
  rintro q2 f2 ⟨k1, k2, k3, new2, k4, k5⟩
  refine runsTo_waitall (by rw [k4, List.map_append, hq, k5]) ?_
  exact ⟨(h.same k1 k2 k3).same ⟨k1.live, by simp⟩ rfl rfl, rfl⟩

theorem pair_ne {f0 f : Flight} {L : List (Nat × Nat)} {a m b n : Nat} (h : Owns f0 ((a, m) :: L) f) (hb : (b, n) ∈ L) : a ≠ b := by
  have := h.nodup
  rw [List.map_cons, List.nodup_cons] at this
  rintro rfl
  exact this.1 (List.mem_map.mpr ⟨_, hb, rfl⟩)

theorem none_inward {f : Flight} (h : f.pending = []) : ∀ t ∈ f.pending, t.inward = false := by rw [h]; simp

theorem ingestMat_runs {c : FCfg} {f0 f : Flight} {edges : Nat} {A : List Nat} (heard : Nat → Nat)
    (h : Owns f0 [(edges, A.length)] f) (hp : f.pending = []) (hA : A.Pairwise (· ≤ ·)) :
    RunsTo (ingestMatFlight c edges A heard) f (fun _ f' => Owns f0 [(edges, A.length)] f' ∧ f'.pending = []) := by
  unfold ingestMatFlight
  refine RunsTo.bind (Q := fun x f' => Owns f0 [(x.1, x.2), (edges, A.length)] f' ∧ f'.pending = []) ?_ ?_
  · split
    · refine (owns_new _ h).bind ?_
      rintro a f1 ⟨h1, p1, _⟩
      rw [hp] at p1
      refine (owns_read A.length h1 (by simp) (none_inward p1)).bind ?_
      rintro _ _ rfl
      refine (owns_write A.length h1 (by simp) p1).bind ?_
      rintro _ f1 rfl
      exact RunsTo.pure ⟨h1, p1⟩
    · refine (owns_new _ h).bind ?_
      rintro ted f1 ⟨h1, p1, _⟩
      rw [hp] at p1
      refine (owns_read A.length h1 (by simp) (none_inward p1)).bind ?_
      rintro _ _ rfl
      refine (owns_write A.length h1 (by simp) p1).bind ?_
      rintro _ f1 rfl
      refine (owns_new _ h1).bind ?_
      rintro asg f2 ⟨h2, p2, _⟩
      rw [p1] at p2
      refine (owns_read A.length h2 (by simp) (none_inward p2)).bind ?_
      rintro _ _ rfl
      refine (owns_write A.length h2 (by simp) p2).bind ?_
      rintro _ _ rfl
      refine (owns_write A.length h2 (by simp) p2).bind ?_
      rintro _ f2 rfl
      refine (owns_delete (P := [(asg, A.length)]) h2 p2).bind ?_
      rintro _ f3 ⟨h3, p3⟩
      refine (owns_new _ h3).bind ?_
      rintro pos f4 ⟨h4, p4, _⟩
      rw [p3] at p4
      refine (owns_new _ h4).bind ?_
      rintro cnt f5 ⟨h5, p5, _⟩
      rw [p4] at p5
      refine (owns_new _ h5).bind ?_
      rintro rpos f6 ⟨h6, p6, _⟩
      rw [p5] at p6
      refine (owns_new _ h6).bind ?_
      rintro rcnt f7 ⟨h7, p7, _⟩
      rw [p6] at p7
      refine (owns_read A.length h7 (by simp) (none_inward p7)).bind ?_
      rintro _ _ rfl
      refine (owns_write c.nrank h7 (by simp) p7).bind ?_
      rintro _ _ rfl
      refine (owns_write (c.nrank + 1) h7 (by simp) p7).bind ?_
      rintro _ f7 rfl
      refine runsTo_givenBind (sendPlan_spec hA c.nrank) ?_
      refine (owns_delete (P := [(rcnt, c.nrank), (rpos, c.nrank + 1), (cnt, c.nrank), (pos, c.nrank + 1)]) h7 p7).bind ?_
      rintro _ f8 ⟨h8, p8⟩
      refine (exchangeCounts_runs h8 p8 (by simp) (by simp) (fun e => pair_ne h8 (b := cnt) (n := c.nrank) (by simp) e.symm)).bind ?_
      rintro _ f9 ⟨h9, p9⟩
      refine (owns_read c.nrank h9 (by simp) (none_inward p9)).bind ?_
      rintro _ _ rfl
      refine (owns_write (c.nrank + 1) h9 (by simp) p9).bind ?_
      rintro _ _ rfl
      refine (owns_read (c.nrank + 1) h9 (by simp) (none_inward p9)).bind ?_
      rintro _ _ rfl
      refine (owns_read c.nrank h9 (by simp) (none_inward p9)).bind ?_
      rintro _ f9 rfl
      refine (sendEdges_runs (p := fun pc : Nat × Nat => ⟨edges, pc.1, pc.2⟩) h9 p9 ?_).bind ?_
      · intro pc hpc
        obtain ⟨i, _, rfl⟩ := List.mem_map.mp hpc
        refine ⟨A.length, by simp, ?_⟩
        have h1 := below_mono A (show i ≤ i + 1 by omega)
        have h2 := below_le A (i + 1)
        dsimp only
        omega
      rintro qs f10 ⟨h10, q10, s10⟩
      refine (owns_new _ h10).bind ?_
      rintro rec f11 ⟨h11, p11, n11⟩
      have s11 : ∀ t ∈ f11.pending, t.inward = false := by
        intro t ht
        rw [p11] at ht
        exact (s10 t ht).1
      refine (owns_read (c.nrank + 1) h11 (by simp) s11).bind ?_
      rintro _ _ rfl
      refine (owns_read c.nrank h11 (by simp) s11).bind ?_
      rintro _ f11 rfl
      have hlast := recvEdges_runs (nrank := c.nrank) (heard := heard) (a := rec) (qs := qs) h11 (by rw [p11]; exact q10) (by simp) (by
        intro t ht
        rw [p11] at ht
        have := (s10 t ht).2.1
        omega)
      obtain ⟨_, f12, e12, h12, p12⟩ := hlast
      have assoc : ∀ {β : Type} (k : FlightM β), (do
          let b ← (List.range c.nrank).mapM (fun i => irecv ⟨rec, recvStart heard i, heard i⟩)
          waitall (qs ++ b)
          k) = (do
          let b ← (List.range c.nrank).mapM (fun i => irecv ⟨rec, recvStart heard i, heard i⟩)
          waitall (qs ++ b)) >>= fun _ => k := by
        intro β k
        rw [bind_assoc]
      rw [assoc]
      refine RunsTo.bind (Q := fun _ f' => f' = f12) ⟨_, _, e12, rfl⟩ ?_
      rintro _ f12 rfl
      refine (owns_delete (P := [(rec, recvStart heard c.nrank), (rcnt, c.nrank), (rpos, c.nrank + 1), (cnt, c.nrank)]) h12 p12).bind ?_
      rintro _ f13 ⟨h13, p13⟩
      refine (owns_delete (P := [(rec, recvStart heard c.nrank), (rcnt, c.nrank), (rpos, c.nrank + 1)]) h13 p13).bind ?_
      rintro _ f14 ⟨h14, p14⟩
      refine (owns_delete (P := [(rec, recvStart heard c.nrank), (rcnt, c.nrank)]) h14 p14).bind ?_
      rintro _ f15 ⟨h15, p15⟩
      refine (owns_delete (P := [(rec, recvStart heard c.nrank)]) h15 p15).bind ?_
      rintro _ f16 ⟨h16, p16⟩
      exact RunsTo.pure ⟨h16, p16⟩
  · rintro ⟨rec, tot⟩ f1 ⟨h1, p1⟩
    dsimp only at h1 ⊢
    refine (owns_new _ h1).bind ?_
    rintro t2 f2 ⟨h2, p2, _⟩
    rw [p1] at p2
    refine (owns_read tot h2 (by simp) (none_inward p2)).bind ?_
    rintro _ _ rfl
    refine (owns_write tot h2 (by simp) p2).bind ?_
    rintro _ f2 rfl
    refine (owns_new _ h2).bind ?_
    rintro a2 f3 ⟨h3, p3, _⟩
    rw [p2] at p3
    refine (owns_read tot h3 (by simp) (none_inward p3)).bind ?_
    rintro _ _ rfl
    refine (owns_write tot h3 (by simp) p3).bind ?_
    rintro _ _ rfl
    refine (owns_write tot h3 (by simp) p3).bind ?_
    rintro _ f3 rfl
    refine (owns_delete (P := [(a2, tot)]) h3 p3).bind ?_
    rintro _ f4 ⟨h4, p4⟩
    refine (owns_read tot h4 (by simp) (none_inward p4)).bind ?_
    rintro _ _ rfl
    refine (owns_read tot h4 (by simp) (none_inward p4)).bind ?_
    rintro _ f4 rfl
    refine (owns_delete (P := []) h4 p4).bind ?_
    rintro _ f5 ⟨h5, p5⟩
    exact owns_delete (P := []) h5 p5

/-! ### Vectors -/

theorem newMsgs_runs {cnt : Nat → Nat} :
    ∀ {l : List Nat} {f0 f : Flight} {L : List (Nat × Nat)}, Owns f0 L f → f.pending = [] →
    RunsTo (l.mapM (fun i => do
      let a ← newArray (cnt i)
      pure (i, a))) f (fun (msgs : List (Nat × Nat)) f' => Owns f0 (L ++ msgs.map (fun m => (m.2, cnt m.1))) f' ∧ f'.pending = [])
  | [], f0, f, L, h, hp => by
    rw [List.mapM_nil]
    exact RunsTo.pure ⟨by simpa using h, hp⟩
  | i :: l, f0, f, L, h, hp => by
    rw [List.mapM_cons]
    refine RunsTo.bind (Q := fun m f' => Owns f0 (L ++ [(m.2, cnt m.1)]) f' ∧ f'.pending = []) ?_ ?_
    · refine (owns_new _ h).bind ?_
      rintro a f1 ⟨h1, p1, _⟩
      exact RunsTo.pure ⟨h1.perm (List.perm_append_singleton _ _).symm, by rw [p1, hp]⟩
    · rintro m f1 ⟨h1, p1⟩
      refine (newMsgs_runs (l := l) h1 p1).bind ?_
      rintro msgs f2 ⟨h2, p2⟩
      exact RunsTo.pure ⟨by simpa using h2, p2⟩

theorem deleteMsgs_runs {g : Nat → Nat} :
    ∀ {msgs : List (Nat × Nat)} {f0 f : Flight} {L : List (Nat × Nat)}, Owns f0 (L ++ msgs.map (fun m => (m.2, g m.1))) f → f.pending = [] →
    RunsTo (msgs.mapM (fun m => deleteArray m.2)) f (fun _ f' => Owns f0 L f' ∧ f'.pending = [])
  | [], f0, f, L, h, hp => by
    rw [List.mapM_nil]
    exact RunsTo.pure ⟨by simpa using h, hp⟩
  | m :: msgs, f0, f, L, h, hp => by
    rw [List.mapM_cons]
    refine (owns_delete (P := L) h hp).bind ?_
    rintro _ f1 ⟨h1, p1⟩
    refine (deleteMsgs_runs h1 p1).bind ?_
    rintro _ f2 h2
    exact RunsTo.pure h2

theorem ingestVec_runs {c : FCfg} {f0 f : Flight} {edges : Nat} {keys : List Nat} (heard : Nat → Nat)
    (h : Owns f0 [(edges, keys.length)] f) (hp : f.pending = []) :
    RunsTo (ingestVecFlight c edges keys heard) f (fun _ f' => (∃ L, Owns f0 (L ++ (edges, keys.length) :: []) f') ∧ f'.pending = []) := by
  unfold ingestVecFlight
  refine (owns_new _ h).bind ?_
  rintro asg f1 ⟨h1, p1, _⟩
  rw [hp] at p1
  refine (owns_read keys.length h1 (by simp) (none_inward p1)).bind ?_
  rintro _ _ rfl
  refine (owns_write keys.length h1 (by simp) p1).bind ?_
  rintro _ f1 rfl
  refine (owns_new _ h1).bind ?_
  rintro cnt f2 ⟨h2, p2, _⟩
  rw [p1] at p2
  refine (owns_new _ h2).bind ?_
  rintro rcnt f3 ⟨h3, p3, _⟩
  rw [p2] at p3
  refine (owns_read keys.length h3 (by simp) (none_inward p3)).bind ?_
  rintro _ _ rfl
  refine (owns_write c.nrank h3 (by simp) p3).bind ?_
  rintro _ f3 rfl
  refine (exchangeCounts_runs h3 p3 (by simp) (by simp) (fun e => pair_ne h3 (b := cnt) (n := c.nrank) (by simp) e.symm)).bind ?_
  rintro _ f4 ⟨h4, p4⟩
  refine (owns_new _ h4).bind ?_
  rintro off f5 ⟨h5, p5, _⟩
  rw [p4] at p5
  refine (newMsgs_runs (cnt := fun i => keys.count i) h5 p5).bind ?_
  rintro msgs f6 ⟨h6, p6⟩
  refine (owns_write c.nrank h6 (by simp) p6).bind ?_
  rintro _ _ rfl
  refine (owns_read keys.length h6 (by simp) (none_inward p6)).bind ?_
  rintro _ f6 rfl
  have hmsg : ∀ m ∈ msgs, (m.2, keys.count m.1) ∈ [(off, c.nrank), (rcnt, c.nrank), (cnt, c.nrank), (asg, keys.length), (edges, keys.length)] ++
      msgs.map (fun m => (m.2, keys.count m.1)) := by
    intro m hm
    exact List.mem_append.mpr (Or.inr (List.mem_map.mpr ⟨m, hm, rfl⟩))
  refine RunsTo.bind (mapM_still (p := fun m : Nat × Nat => writeArray m.2) (l := msgs)
    (fun m hm => owns_write (keys.count m.1) h6 (hmsg m hm) p6)) ?_
  rintro _ f6 rfl
  refine (owns_read c.nrank h6 (by simp) (none_inward p6)).bind ?_
  rintro _ f6 rfl
  refine (sendEdges_runs (p := fun m : Nat × Nat => ⟨m.2, 0, keys.count m.1⟩) h6 p6 ?_).bind ?_
  · intro m hm
    exact ⟨keys.count m.1, hmsg m hm, by simp⟩
  rintro qs f7 ⟨h7, q7, s7⟩
  refine (owns_new _ h7).bind ?_
  rintro hist f8 ⟨h8, p8, n8⟩
  have s8 : ∀ t ∈ f8.pending, t.inward = false := by
    intro t ht
    rw [p8] at ht
    exact (s7 t ht).1
  refine (owns_read c.nrank h8 (by simp) s8).bind ?_
  rintro _ f8 rfl
  refine RunsTo.bind (Q := fun _ f' => f' = f8) (runsTo_writeArray (n := c.nrank + 1) (h8.live _ (by simp)).1 ?_ rfl) ?_
  · intro t ht
    rw [p8] at ht
    have := (s7 t ht).2.1
    omega
  rintro _ f8 rfl
  refine (owns_new _ h8).bind ?_
  rintro fin f9 ⟨h9, p9, n9⟩
  have hlast := recvEdges_runs (nrank := c.nrank) (heard := heard) (a := fin) (qs := qs) h9 (by rw [p9, p8]; exact q7) (by simp) (by
    intro t ht
    rw [p9] at ht
    have := h8.ok.pend t ht
    omega)
  obtain ⟨_, f10, e10, h10, p10⟩ := hlast
  have assoc : ∀ {β : Type} (k : FlightM β), (do
      let b ← (List.range c.nrank).mapM (fun i => irecv ⟨fin, recvStart heard i, heard i⟩)
      waitall (qs ++ b)
      k) = (do
      let b ← (List.range c.nrank).mapM (fun i => irecv ⟨fin, recvStart heard i, heard i⟩)
      waitall (qs ++ b)) >>= fun _ => k := by
    intro β k
    rw [bind_assoc]
  rw [assoc]
  refine RunsTo.bind (Q := fun _ f' => f' = f10) ⟨_, _, e10, rfl⟩ ?_
  rintro _ f10 rfl
  refine (deleteMsgs_runs (g := fun i => keys.count i) (L := [(fin, recvStart heard c.nrank), (hist, c.nrank + 1), (off, c.nrank),
    (rcnt, c.nrank), (cnt, c.nrank), (asg, keys.length), (edges, keys.length)]) h10 p10).bind ?_
  rintro _ f11 ⟨h11, p11⟩
  refine (owns_delete (P := [(fin, recvStart heard c.nrank)]) h11 p11).bind ?_
  rintro _ f12 ⟨h12, p12⟩
  refine (owns_delete (P := [(fin, recvStart heard c.nrank)]) h12 p12).bind ?_
  rintro _ f13 ⟨h13, p13⟩
  refine (owns_delete (P := [(fin, recvStart heard c.nrank), (rcnt, c.nrank)]) h13 p13).bind ?_
  rintro _ f14 ⟨h14, p14⟩
  refine (owns_delete (P := [(fin, recvStart heard c.nrank)]) h14 p14).bind ?_
  rintro _ f15 ⟨h15, p15⟩
  refine (owns_read (recvStart heard c.nrank) h15 (by simp) (none_inward p15)).mono ?_
  rintro _ _ rfl
  exact ⟨⟨[(fin, recvStart heard c.nrank), (asg, keys.length)], h15⟩, p15⟩

/-! ### Shuffling -/

theorem shufflePlan_spec {E : Type} {R T : Nat} (hR : 0 < R) (hT : 0 < T) {el : EdgeList E} (hwf : el.WF)
    (key : Edge E → Nat) (hkey : ∀ e ∈ el.list, shuffleBin R e = some (key e) ∧ key e < R) :
    ∃ plan, shufflePlan R T el = some plan ∧ ∀ pc ∈ plan, pc.1 + pc.2 ≤ el.nnz := by
  have hk : ∀ i, i < el.nnz → shuffleBin R (el.edges.get i) = some (key (el.edges.get i)) ∧ key (el.edges.get i) < R :=
    fun i hi => hkey _ (Arr.mem_pre.mpr ⟨i, hi, rfl⟩)
  obtain ⟨hist, a1, a2, a3⟩ := shuffleHistogram_spec (key := key) hT hwf hk rfl rfl
  obtain ⟨off, b1, b2, b3⟩ := shuffleOffsets_spec (key := key) (edges := el.edges) (N := el.nnz) hT hR a2 a3
  refine ⟨(List.range R).map (fun b => (cntBelow key el.edges b el.nnz, cntTo key el.edges b el.nnz)), ?_, ?_⟩
  · unfold shufflePlan
    rw [a1]
    simp only [Option.bind_eq_bind, Option.bind_some]
    rw [b1]
    simp only [Option.bind_some]
    apply mapM_some
    intro b hb
    rw [List.mem_range] at hb
    have hlt := idx_lt hT hb
    rw [Nat.zero_mul, Nat.zero_add] at hlt
    rw [Arr.read_some (by omega)]
    simp only [Option.bind_some]
    rw [shuffleCount_spec (key := key) (edges := el.edges) (N := el.nnz) hT a2 a3 hb]
    simp only [Option.bind_some]
    have hpos := b3 0 b hT hb
    rw [Nat.zero_mul, Nat.zero_add, chunkStart_zero hT] at hpos
    have hz : cntTo key el.edges b 0 = 0 := rfl
    rw [hz, Nat.add_zero] at hpos
    rw [hpos]
  · intro pc hpc
    obtain ⟨b, _, rfl⟩ := List.mem_map.mp hpc
    dsimp only
    rw [← cntBelow_succ]
    exact cntBelow_le _ _

theorem shuffle_runs {E : Type} {c : FCfg} {f0 f : Flight} {edges : Nat} {el : EdgeList E} (heard : Nat → Nat)
    (h : Owns f0 [(edges, el.nnz)] f) (hp : f.pending = [])
    (hplan : ∃ plan, shufflePlan c.nrank c.threads el = some plan ∧ ∀ pc ∈ plan, pc.1 + pc.2 ≤ el.nnz) :
    RunsTo (shuffleFlight c edges el heard) f (fun a f' => Owns f0 [(a, recvStart heard c.nrank)] f' ∧ f'.pending = []) := by
  unfold shuffleFlight
  obtain ⟨plan, hpl, hbd⟩ := hplan
  refine (owns_new _ h).bind ?_
  rintro ted f1 ⟨h1, p1, _⟩
  rw [hp] at p1
  refine (owns_new _ h1).bind ?_
  rintro his f2 ⟨h2, p2, _⟩
  rw [p1] at p2
  refine (owns_new _ h2).bind ?_
  rintro off f3 ⟨h3, p3, _⟩
  rw [p2] at p3
  refine (owns_new _ h3).bind ?_
  rintro wof f4 ⟨h4, p4, _⟩
  rw [p3] at p4
  refine (owns_read el.nnz h4 (by simp) (none_inward p4)).bind ?_
  rintro _ _ rfl
  refine (owns_write (c.threads * c.nrank) h4 (by simp) p4).bind ?_
  rintro _ _ rfl
  refine (owns_write (c.threads * c.nrank) h4 (by simp) p4).bind ?_
  rintro _ _ rfl
  refine (owns_write (c.threads * c.nrank) h4 (by simp) p4).bind ?_
  rintro _ _ rfl
  refine (owns_write el.nnz h4 (by simp) p4).bind ?_
  rintro _ f4 rfl
  refine runsTo_givenBind hpl ?_
  refine (owns_new _ h4).bind ?_
  rintro pos f5 ⟨h5, p5, _⟩
  rw [p4] at p5
  refine (owns_new _ h5).bind ?_
  rintro cnt f6 ⟨h6, p6, _⟩
  rw [p5] at p6
  refine (owns_new _ h6).bind ?_
  rintro rpos f7 ⟨h7, p7, _⟩
  rw [p6] at p7
  refine (owns_new _ h7).bind ?_
  rintro rcnt f8 ⟨h8, p8, _⟩
  rw [p7] at p8
  refine (owns_read (c.threads * c.nrank) h8 (by simp) (none_inward p8)).bind ?_
  rintro _ _ rfl
  refine (owns_read (c.threads * c.nrank) h8 (by simp) (none_inward p8)).bind ?_
  rintro _ _ rfl
  refine (owns_write (c.nrank + 1) h8 (by simp) p8).bind ?_
  rintro _ _ rfl
  refine (owns_write c.nrank h8 (by simp) p8).bind ?_
  rintro _ f8 rfl
  refine (exchangeCounts_runs h8 p8 (by simp) (by simp) (fun e => pair_ne h8 (b := cnt) (n := c.nrank) (by simp) e.symm)).bind ?_
  rintro _ f9 ⟨h9, p9⟩
  refine (owns_read c.nrank h9 (by simp) (none_inward p9)).bind ?_
  rintro _ _ rfl
  refine (owns_write (c.nrank + 1) h9 (by simp) p9).bind ?_
  rintro _ _ rfl
  refine (owns_read (c.nrank + 1) h9 (by simp) (none_inward p9)).bind ?_
  rintro _ _ rfl
  refine (owns_read c.nrank h9 (by simp) (none_inward p9)).bind ?_
  rintro _ f9 rfl
  refine (sendEdges_runs (p := fun pc : Nat × Nat => ⟨ted, pc.1, pc.2⟩) h9 p9 (fun pc hpc => ⟨el.nnz, by simp, hbd pc hpc⟩)).bind ?_
  rintro qs f10 ⟨h10, q10, s10⟩
  refine (owns_new _ h10).bind ?_
  rintro rec f11 ⟨h11, p11, n11⟩
  have s11 : ∀ t ∈ f11.pending, t.inward = false := by
    intro t ht
    rw [p11] at ht
    exact (s10 t ht).1
  refine (owns_read (c.nrank + 1) h11 (by simp) s11).bind ?_
  rintro _ _ rfl
  refine (owns_read c.nrank h11 (by simp) s11).bind ?_
  rintro _ f11 rfl
  have hlast := recvEdges_runs (nrank := c.nrank) (heard := heard) (a := rec) (qs := qs) h11 (by rw [p11]; exact q10) (by simp) (by
    intro t ht
    rw [p11] at ht
    have := (s10 t ht).2.1
    omega)
  obtain ⟨_, f12, e12, h12, p12⟩ := hlast
  have assoc : ∀ {β : Type} (k : FlightM β), (do
      let b ← (List.range c.nrank).mapM (fun i => irecv ⟨rec, recvStart heard i, heard i⟩)
      waitall (qs ++ b)
      k) = (do
      let b ← (List.range c.nrank).mapM (fun i => irecv ⟨rec, recvStart heard i, heard i⟩)
      waitall (qs ++ b)) >>= fun _ => k := by
    intro β k
    rw [bind_assoc]
  rw [assoc]
  refine RunsTo.bind (Q := fun _ f' => f' = f12) ⟨_, _, e12, rfl⟩ ?_
  rintro _ f12 rfl
  refine (owns_delete (P := [(rec, recvStart heard c.nrank), (rcnt, c.nrank), (rpos, c.nrank + 1), (cnt, c.nrank)]) h12 p12).bind ?_
  rintro _ f13 ⟨h13, p13⟩
  refine (owns_delete (P := [(rec, recvStart heard c.nrank), (rcnt, c.nrank), (rpos, c.nrank + 1)]) h13 p13).bind ?_
  rintro _ f14 ⟨h14, p14⟩
  refine (owns_delete (P := [(rec, recvStart heard c.nrank), (rcnt, c.nrank)]) h14 p14).bind ?_
  rintro _ f15 ⟨h15, p15⟩
  refine (owns_delete (P := [(rec, recvStart heard c.nrank)]) h15 p15).bind ?_
  rintro _ f16 ⟨h16, p16⟩
  refine (owns_delete (P := [(rec, recvStart heard c.nrank), (wof, c.threads * c.nrank), (off, c.threads * c.nrank),
    (his, c.threads * c.nrank)]) h16 p16).bind ?_
  rintro _ f17 ⟨h17, p17⟩
  refine (owns_delete (P := [(rec, recvStart heard c.nrank), (wof, c.threads * c.nrank), (off, c.threads * c.nrank)]) h17 p17).bind ?_
  rintro _ f18 ⟨h18, p18⟩
  refine (owns_delete (P := [(rec, recvStart heard c.nrank), (wof, c.threads * c.nrank)]) h18 p18).bind ?_
  rintro _ f19 ⟨h19, p19⟩
  refine (owns_delete (P := [(rec, recvStart heard c.nrank)]) h19 p19).bind ?_
  rintro _ f20 ⟨h20, p20⟩
  refine (owns_delete (P := [(rec, recvStart heard c.nrank)]) h20 p20).bind ?_
  rintro _ f21 ⟨h21, p21⟩
  exact RunsTo.pure ⟨h21, p21⟩

end GraphMat

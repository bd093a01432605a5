import Verif.Lemmas.DeltaStepping
import Verif.Props.EdgeList

/-!
# C32: delta-stepping
-/
namespace GraphMat

/-- A graph that uses another graph's properties. -/
theorem Graph.Loaded.sharing {V E : Type} {n nrank threads : Nat} {G2 G : Graph V E} {es2 es : List (Edge E)}
    {Q P : Nat → V} (h2 : G2.Loaded n nrank threads es2 Q) (h : G.Loaded n nrank threads es P) :
    (G2.sharing G).Loaded n nrank threads es2 P := by
  have i2 := h2.inv
  have i := h.inv
  exact h2.onVertices (vg := { G2.toVGraph with vp := G.vp })
    ⟨i2.hn, i2.hr, i2.ht, i.vp, i.vpReady, i2.act, i2.actReady⟩ h.props

/-- What holds for the variables of the loop before round `b` (for the properties `P`). -/
structure DsState.Ok (st : DsState) (n nrank threads : Nat) (es : List (Edge Int)) (src δ b : Nat) (P : Nat → DsV) : Prop where
  G : st.G.Loaded n nrank threads (es.filter (dsLight δ)) P
  G2 : ∃ Q, st.G2.Loaded n nrank threads (es.filter (dsHeavy δ)) Q
  xy : Scratch n nrank st.xy.1 st.xy.2
  bid : st.bid = (b : Int)
  inv : DsInv es src n δ b P

/-- One round processes one bucket. -/
theorem dsRound_spec {n nrank threads : Nat} (c : Cfg n nrank threads) (hfit : n + threads ≤ IMAX) {es : List (Edge Int)}
    {src δ B : Nat} (hI : DsInput es src n δ B) (e : DsEnv) {fuel : Nat} (hf : n ≤ fuel) (hfm : fuel ≤ IMAX) {b : Nat}
    (hb : b < B) {st : DsState} {P : Nat → DsV} (h : st.Ok n nrank threads es src δ b P) :
    ∃ st' P', ∃ l : List Nat, dsRound e δ st fuel = some (.done (st', some (l.length : Int))) ∧
      st'.Ok n nrank threads es src δ (b + 1) P' ∧ (∃ A, st'.G.Represents n nrank threads (es.filter (dsLight δ)) P' A) ∧
      (l = [] → ∀ v, 1 ≤ v → v ≤ n → dN P' v ≠ UMAX → dN P' v / δ < b + 1) ∧ (l ≠ [] → b + 1 < B) := by
  have hn : 0 < n := by have := hI.s1; have := hI.s2; omega
  unfold dsRound
  obtain ⟨G1, a1, a2⟩ := h.G.setAllActive c e.light.gia
  rw [a1]
  simp only [Option.bind_eq_bind, Option.bind_some]
  -- the light edges
  obtain ⟨st1, k, P1, A1, r1, _, _, _, r4, r5, hs1, hmid⟩ := run_until_invariant c e.light.ie e.light.env (dsProg_pure δ)
    st.bid a2 (scratch := some st.xy) (by rintro _ ⟨⟩; exact h.xy) (iterations := -1) (by omega)
    (Inv := fun k P A s => s = (b : Int) ∧ DsLight es src n δ b k P A)
    (Done := fun _ P _ s => s = (b : Int) ∧ DsMid es src n δ b P)
    (N := n) hn
    (by
      refine ⟨h.bid, h.inv.ok.forget, h.inv.settled, ?_⟩
      intro x _ _ _ _
      exact .inl rfl)
    (by
      rintro k P1 A1 s1 P2 A2 q hk ⟨rfl, hi⟩ hs
      obtain ⟨m1, m2, m3⟩ := hi.ok.relax hI (fun e he => (List.mem_filter.mp he).1) hb hs
      have hstep := hi.step hI ⟨m1, m2⟩
      refine ⟨fun hq => ⟨rfl, hstep.done hI (m3.mp hq)⟩, fun hq => ⟨?_, rfl, hstep⟩⟩
      apply Classical.byContradiction
      intro hkn
      have : q = true := m3.mpr (by
        intro v v1 v2
        rcases m1 v v1 v2 with ⟨_, h⟩ | ⟨hA, hlt, _⟩
        · exact h
        · have hle := dN_le P1 v
          rcases hstep.ok.chain v v1 v2 with hc | ⟨l, hl, hlen⟩
          · omega
          · have := hlen hA
            have := hl.length_le
            omega)
      rw [this] at hq; cases hq)
    fuel hf hfm
  rw [r1]
  simp only [Option.bind_some, dsAfterLight, Option.bind_eq_bind]
  -- the heavy edges
  obtain ⟨Q, hQ⟩ := h.G2
  obtain ⟨G2, b1, b2⟩ := (hQ.sharing r4.loaded).setAllActive c e.heavy.gia
  rw [b1]
  simp only [Option.bind_some]
  obtain ⟨st2, P2, A2, cs, c1, _, c3, c4, c5, c6⟩ := run_executes_exactly_N c e.heavy.ie e.heavy.env (dsProg_pure δ) st1.s b2
    (scratch := some (st1.x, st1.y)) (by rintro _ ⟨⟩; exact r5) 1 (Nat.le_refl _) (by decide) fuel (by omega)
  have hst2 : st2.s = (b : Int) := by rw [c6, ← hs1]; rfl
  rw [hs1] at c1 c5
  have c1' : Graph.run e.heavy.ie e.heavy.env (dsProg δ) st1.s 1 (some (st1.x, st1.y)) G2 fuel = some (.done st2) := by
    rw [hs1]; exact c1
  rw [c1']
  simp only [Option.bind_some]
  have hinv : DsInv es src n δ (b + 1) P2 := by
    generalize hst : st2.s = s' at c5
    generalize hone : (1 : Nat) = one at c5
    cases c5 with
    | zero => cases hone
    | succ g1 g2 =>
      injection hone with hone
      subst hone
      cases g1
      obtain ⟨m1, m2, _⟩ := (hmid.ok.forget (A' := startActive (dsProg δ) (b : Int) (fun _ => true))).relax hI
        (fun e he => (List.mem_filter.mp he).1) hb g2
      exact hmid.heavy hI (fun _ _ _ => rfl) ⟨m1, m2⟩
  have hB := hI.b
  have hbid : cadd st2.s 1 = some (((b + 1 : Nat)) : Int) := by
    rw [hst2]
    have := cadd_nat (a := b) (b := 1) (by omega)
    exact_mod_cast this
  rw [hbid]
  simp only [Option.bind_some]
  have hG : (st1.G.sharing st2.G).Represents n nrank threads (es.filter (dsLight δ)) P2 A1 :=
    (r4.loaded.sharing c3.loaded).keepActive r4 rfl
  have hIM : INT_MAX = (IMAX : Int) := rfl
  have hwalk : ∀ v, 1 ≤ v → v ≤ n → dN P2 v ≠ UMAX → dN P2 v / δ < B := by
    intro v v1 v2 hne
    obtain ⟨j, j1, j2⟩ := hinv.ok.walk v1 v2 hne
    exact hI.bound _ _ _ (by omega) j2
  obtain ⟨vg, l, q1, q2, q3, q4⟩ := applyReduce_count_of (map := dsNotEmpty ((b + 1 : Nat) : Int)) (tmp := e.tmp)
    (m := fun v => v.bucket.map (fun x => if x ≥ ((b + 1 : Nat) : Int) ∧ x < INT_MAX then 1 else 0))
    (p := fun v => decide (b + 1 ≤ v.dist.toNat / δ ∧ v.dist.toNat ≠ UMAX)) (fun _ _ => rfl) e.light.gr c hfit hG
    (by
      intro v v1 v2
      rw [hinv.ok.bucket v v1 v2]
      simp only [Option.map_some, decide_eq_true_eq]
      show _ = some (if b + 1 ≤ dN P2 v / δ ∧ dN P2 v ≠ UMAX then 1 else 0)
      by_cases hne : dN P2 v = UMAX
      · rw [if_pos hne, if_neg (by omega), if_neg (by omega)]
      · have := hwalk v v1 v2 hne
        rw [if_neg hne]
        by_cases hq : b + 1 ≤ dN P2 v / δ
        · rw [if_pos ⟨by exact_mod_cast hq, by rw [hIM]; exact_mod_cast (by omega)⟩, if_pos ⟨hq, hne⟩]
        · rw [if_neg (by intro hc; exact hq (by exact_mod_cast hc.1)), if_neg (by intro hc; exact hq hc.1)])
  rw [q1]
  refine ⟨_, P2, l, rfl, ⟨q4.loaded, ⟨P2, c3.loaded⟩, c4, rfl, hinv⟩, ⟨A1, q4⟩, ?_, ?_⟩
  · intro hl v v1 v2 hne
    apply Classical.byContradiction
    intro hc
    have := (q3 v).mpr ⟨v1, v2, by rw [decide_eq_true_iff]; exact ⟨by unfold dN at hc; omega, hne⟩⟩
    rw [hl] at this; cases this
  · intro hl
    obtain ⟨v, l', rfl⟩ := List.exists_cons_of_ne_nil hl
    obtain ⟨v1, v2, v3⟩ := (q3 v).mp (by simp)
    rw [decide_eq_true_iff] at v3
    have := hwalk v v1 v2 v3.2
    unfold dN at this
    omega

/-- The loop ends after at most `B` rounds with the distances. -/
theorem dsLoop_spec {n nrank threads : Nat} (c : Cfg n nrank threads) (hfit : n + threads ≤ IMAX) {es : List (Edge Int)}
    {src δ B : Nat} (hI : DsInput es src n δ B) (e : Nat → DsEnv) {fuel : Nat} (hf : n ≤ fuel) (hfm : fuel ≤ IMAX)
    (rounds : Nat) : ∀ (i b : Nat) (st : DsState) (P : Nat → DsV), b < B → B ≤ b + rounds →
      st.Ok n nrank threads es src δ b P →
      ∃ st' P' A', dsLoop e δ fuel rounds i st = some (.done st') ∧
        st'.G.Represents n nrank threads (es.filter (dsLight δ)) P' A' ∧
        ∀ v, 1 ≤ v → v ≤ n → (dN P' v ≠ UMAX ∧ IsDist Int.toNat es src v (dN P' v) ∨
          dN P' v = UMAX ∧ ¬ Reachable es src v) := by
  induction rounds with
  | zero => intro i b st P h1 h2; omega
  | succ rounds ih =>
    intro i b st P h1 h2 h
    obtain ⟨st1, P1, l, a1, a2, ⟨A, a3⟩, a4, a5⟩ := dsRound_spec c hfit hI (e i) hf hfm h1 h
    simp only [dsLoop]
    rw [a1]
    simp only [Option.bind_some]
    by_cases hl : l = []
    · subst hl
      rw [if_neg (by simp)]
      exact ⟨st1, P1, A, rfl, a3, fun v v1 v2 => a2.inv.correct hI (a4 rfl) v1 v2⟩
    · rw [if_pos (by
        intro h0
        have : l.length = 0 := by exact_mod_cast h0
        exact hl (List.length_eq_zero_iff.mp this))]
      exact ih (i + 1) (b + 1) st1 P1 (a5 hl) (by omega) a2

/-- The state before the first round. -/
theorem dsPrepare_spec {n nrank threads : Nat} (c : Cfg n nrank threads) (e : AppEnv (BitVec 32) (BitVec 32) DsV)
    {es : List (Edge Int)} {src δ : Nat} (h1 : 1 ≤ src) (h2 : src ≤ n) {G G2 : Graph DsV Int}
    {Q : Nat → DsV} (hG : G.Loaded n nrank threads (es.filter (dsLight δ)) (fun _ => DsV.new))
    (hG2 : G2.Loaded n nrank threads (es.filter (dsHeavy δ)) Q) :
    ∃ st P, dsPrepare e src G G2 = some st ∧ st.Ok n nrank threads es src δ 0 P := by
  unfold dsPrepare
  obtain ⟨x, y, b1, b2⟩ := Graph.newScratch_spec c hG.inv e.ie
  simp only
  rw [b1]
  simp only [Option.bind_eq_bind, Option.bind_some]
  obtain ⟨G2', c1, c2⟩ := hG.setAllInactive c e.gia
  rw [c1]
  simp only [Option.bind_some]
  obtain ⟨G3, d1, d2, d3⟩ := c2.loaded.setVertexproperty c e.gs h1 h2 ⟨0#32, some 0⟩
  rw [d1]
  simp only [Option.bind_some]
  obtain ⟨G4, f1, f2⟩ := (d2.keepActive c2 d3).setActive c e.ga h1 h2
  rw [f1]
  refine ⟨_, _, rfl, f2.loaded, ⟨_, hG2.sharing hG⟩, b2, rfl, ⟨?_, ?_, ?_⟩, ?_⟩
  · simp [dN]
  · intro v _ _
    by_cases hv : v = src
    · subst hv; simp [dN]
    · simp only [dN, if_neg hv]; rfl
  · intro v v1 v2
    by_cases hv : v = src
    · subst hv
      right
      refine ⟨[v], ⟨by simp, ?_, 0, rfl, ?_⟩, fun _ => Nat.le_refl _⟩
      · intro x hx
        rw [List.mem_singleton] at hx
        subst hx
        exact ⟨v1, v2, Nat.le_refl _⟩
      · simp only [dN, if_pos]; exact .refl
    · left
      simp only [dN, if_neg hv]; rfl
  · intro x _ _ h0; exact absurd h0 (Nat.not_lt_zero _)

/-- Loading the two halves of the edges. -/
theorem dsLoad_spec {n nrank threads : Nat} (c : Cfg n nrank threads)
    (le le2 : LoadEnv DsV Int) (hsA : le.sA.OK) (hsT : le.sAT.OK) (hd : le.d = fun _ => DsV.new)
    (hsA2 : le2.sA.OK) (hsT2 : le2.sAT.OK) (hd2 : le2.d = fun _ => DsV.new) (g : Nat → Edge Int) (δ : Int)
    {els : List (EdgeList Int)} (hwf : ∀ el ∈ els, el.WF) (hb : els.length = nrank)
    (hin : ∀ el ∈ els, ∀ e ∈ el.list, e.Valid n) :
    ∃ G G2, dsLoad le le2 g threads nrank n n δ els = some (G, G2) ∧
      G.Loaded n nrank threads ((els.map EdgeList.list).flatten.filter (dsLight δ)) (fun _ => DsV.new) ∧
      G2.Loaded n nrank threads ((els.map EdgeList.list).flatten.filter (dsHeavy δ)) (fun _ => DsV.new) := by
  have hfilter : ∀ p : Edge Int → Bool, ∃ els', els.mapM (filterEdges g p) = some els' ∧
      els'.map EdgeList.list = els.map (fun el => el.list.filter p) := by
    intro p
    clear hb hin
    induction els with
    | nil => exact ⟨[], rfl, rfl⟩
    | cons el els ih =>
      obtain ⟨els', i1, i2⟩ := ih (fun x hx => hwf x (List.mem_cons_of_mem _ hx))
      obtain ⟨el', j1, _, _, _, j2⟩ := filter_edges_keeps_the_chosen g p (hwf el (by simp))
      refine ⟨el' :: els', ?_, by rw [List.map_cons, List.map_cons, i2, j2]⟩
      rw [List.mapM_cons, j1, i1]; rfl
  have hflat : ∀ p : Edge Int → Bool, (els.map (fun el => el.list.filter p)).flatten =
      (els.map EdgeList.list).flatten.filter p := by
    intro p
    rw [List.filter_flatten, List.map_map]; rfl
  obtain ⟨l1, a1, a2⟩ := hfilter (dsLight δ)
  obtain ⟨l2, b1, b2⟩ := hfilter (dsHeavy δ)
  have hlen : ∀ p : Edge Int → Bool, (els.map (fun el => el.list.filter p)).length = nrank := by
    intro p; rw [List.length_map, hb]
  have hval : ∀ p : Edge Int → Bool, ∀ es ∈ els.map (fun el => el.list.filter p), ∀ e ∈ es, e.Valid n := by
    intro p es hes e he
    obtain ⟨el, hel, rfl⟩ := List.mem_map.mp hes
    exact hin el hel e (List.mem_filter.mp he).1
  obtain ⟨o1, G, c1, c2⟩ := Graph.load_loaded c le hsA hsT hd (hlen (dsLight δ)) (hval _)
  obtain ⟨o2, G2, d1, d2⟩ := Graph.load_loaded c le2 hsA2 hsT2 hd2 (hlen (dsHeavy δ)) (hval _)
  rw [hflat] at c2 d2
  refine ⟨G, G2, ?_, c2, d2⟩
  unfold dsLoad
  rw [Option.bind_eq_bind, a1, Option.bind_some, Option.bind_eq_bind, b1, Option.bind_some, a2, b2,
    c1, Option.bind_some, d1, Option.bind_some]

/-- C32: for every bucket width `δ ≥ 1`, on any number of ranks and threads and for any distribution of the edges
over the ranks: if the lengths are non-negative, no walk of at most `n` edges is as long as `MAX_DIST` and the
bucket numbers of such walks stay below a bound `B ≤ INT_MAX`, then delta-stepping ends after at most `B` rounds;
every vertex then holds its shortest distance from the source, or `MAX_DIST` if it cannot be reached; the count
it reports is the number of vertices reachable from the source. -/
theorem delta_stepping_computes_distances_partial {n nrank threads : Nat} (c : Cfg n nrank threads) (hfit : n + threads ≤ IMAX)
    (le le2 : LoadEnv DsV Int) (hsA : le.sA.OK) (hsT : le.sAT.OK) (hd : le.d = fun _ => DsV.new)
    (hsA2 : le2.sA.OK) (hsT2 : le2.sAT.OK) (hd2 : le2.d = fun _ => DsV.new) (g : Nat → Edge Int)
    (e : AppEnv (BitVec 32) (BitVec 32) DsV) (er : Nat → DsEnv) (tmp : Nat → Nat → Nat → Option Int)
    {els : List (EdgeList Int)} (hwf : ∀ el ∈ els, el.WF) (hb : els.length = nrank)
    (hin : ∀ el ∈ els, ∀ e ∈ el.list, e.Valid n)
    {src : Nat} (h1 : 1 ≤ src) (h2 : src ≤ n) (hno : NoOverflow (els.map EdgeList.list).flatten src n)
    {δ B : Nat} (hδ : 1 ≤ δ) (hδm : δ ≤ IMAX) (hB : B ≤ IMAX)
    (hbuckets : ∀ v k d, k ≤ n → WWalk Int.toNat (els.map EdgeList.list).flatten src v k d → d / δ < B)
    (rounds fuel : Nat) (hr : B ≤ rounds) (hf : n ≤ fuel) (hfm : fuel ≤ IMAX) :
    ∃ G', ∃ reached : List Nat, runDeltaStepping le le2 g e er tmp threads nrank n n δ src els rounds fuel =
        some (.done (G', some (reached.length : Int))) ∧
      reached.Nodup ∧ (∀ v, v ∈ reached ↔ Reachable (els.map EdgeList.list).flatten src v) ∧
      ∀ v, 1 ≤ v → v ≤ n → ∃ x o, o < nrank ∧
        (∀ r, r < nrank → G'.getVertexproperty r v = some (if r = o then some x else none)) ∧
        (x.dist.toNat ≠ UMAX ∧ IsDist Int.toNat (els.map EdgeList.list).flatten src v x.dist.toNat ∨
          x.dist.toNat = UMAX ∧ ¬ Reachable (els.map EdgeList.list).flatten src v) := by
  obtain ⟨G, G2, l1, l2, l3⟩ := dsLoad_spec c le le2 hsA hsT hd hsA2 hsT2 hd2 g δ hwf hb hin
  have hv : ∀ x ∈ (els.map EdgeList.list).flatten, x.Valid n := by
    intro x hx
    obtain ⟨es, hes, hx⟩ := List.mem_flatten.mp hx
    obtain ⟨el, hel, rfl⟩ := List.mem_map.mp hes
    exact hin el hel x hx
  generalize hes : (els.map EdgeList.list).flatten = es at *
  have hI : DsInput es src n δ B := ⟨hv, hno, hbuckets, h1, h2, hδ, hδm, hB⟩
  obtain ⟨st, P, p1, p2⟩ := dsPrepare_spec c e h1 h2 l2 l3
  have hB0 : 0 < B := Nat.lt_of_le_of_lt (Nat.zero_le _) (hbuckets src 0 0 (Nat.zero_le _) .refl)
  obtain ⟨st', P', A', r1, r2, hcorrect⟩ := dsLoop_spec c hfit hI er hf hfm rounds 0 0 st P hB0 (by omega) p2
  have hreach : ∀ v, 1 ≤ v → v ≤ n → ((P' v).dist < DsV.new.dist ↔ Reachable es src v) := by
    intro v v1 v2
    rw [BitVec.lt_def]
    have hm : DsV.new.dist.toNat = UMAX := rfl
    rw [hm]
    have hle := dN_le P' v
    rcases hcorrect v v1 v2 with ⟨a, b⟩ | ⟨a, b⟩
    · refine ⟨fun _ => ⟨_, b.1.choose_spec.walk⟩, fun _ => ?_⟩
      unfold dN at a hle
      omega
    · unfold dN at a
      exact ⟨fun h => by omega, fun h => absurd h b⟩
  obtain ⟨vg, l, q1, q2, q3, q4⟩ := applyReduce_count (map := dsReachable) (tmp := tmp)
    (p := fun v => decide (v.dist < DsV.new.dist)) (fun _ _ => by simp [dsReachable]) e.gr c hfit r2
  refine ⟨{ st'.G with toVGraph := vg }, l, ?_, q2, ?_, ?_⟩
  · unfold runDeltaStepping
    rw [l1]
    simp only [Option.bind_eq_bind, Option.bind_some]
    rw [p1]
    simp only [Option.bind_some]
    rw [r1]
    simp only [Option.bind_some, dsReport, Option.bind_eq_bind]
    rw [q1]
    rfl
  · intro v
    rw [q3, decide_eq_true_iff]
    constructor
    · rintro ⟨v1, v2, h⟩
      exact (hreach v v1 v2).mp h
    · intro h
      obtain ⟨v1, v2⟩ := h.choose_spec.range hv h1 h2
      exact ⟨v1, v2, (hreach v v1 v2).mpr h⟩
  · intro v v1 v2
    obtain ⟨o, o1, o2⟩ := represents_observed c q4 v v1 v2
    exact ⟨P' v, o, o1, fun r hr => (o2 r hr).2, hcorrect v v1 v2⟩

/-- With buckets of width at least 3 the bucket numbers need no extra hypothesis. -/
theorem delta_stepping_buckets_fit {es : List (Edge Int)} {src n δ : Nat} (hno : NoOverflow es src n) (hδ : 3 ≤ δ) :
    ∀ v k d, k ≤ n → WWalk Int.toNat es src v k d → d / δ < IMAX := by
  intro v k d hk hw
  have h1 := hno.bound v k d hk hw
  have h2 : d / δ ≤ d / 3 := Nat.div_le_div_left hδ (by omega)
  have h3 : IMAX = 2147483647 := rfl
  unfold UMAX at h1
  omega

/-- Load a graph on one rank, search from `src`, read the distances of all vertices. -/
def dsSample (threads n : Nat) (es : List (Edge Int)) (delta src : Int) (rounds fuel : Nat) :
    Option (Option Int × List (Option (BitVec 32))) := do
  let o ← runDeltaStepping (LoadEnv.sample DsV.new 0) (LoadEnv.sample DsV.new 0) (fun _ => ⟨0, 0, 0⟩)
    (.sample 77#32 78#32 ⟨3#32, some 4⟩) (fun _ => ⟨.sample 71#32 72#32 ⟨3#32, some 4⟩, .sample 73#32 74#32 ⟨3#32, some 4⟩, fun _ _ _ => some 9⟩)
    (fun _ _ _ => some 8) threads 1 n n delta src [EdgeList.ofList ⟨0, 0, 0⟩ n n es] rounds fuel
  match o with
  | .more _ => none
  | .done st => do
    let l ← (List.range n).mapM (fun v : Nat => st.1.getVertexproperty 0 ((v : Int) + 1))
    some (st.2, l.map (fun x => x.map DsV.dist))

/-- The direct edge to 4 is longer than the path over 2 and 3; vertex 5 cannot be reached. -/
example : dsSample 1 5 [⟨1, 2, 1⟩, ⟨1, 4, 9⟩, ⟨2, 3, 1⟩, ⟨3, 4, 2⟩, ⟨4, 1, 0⟩, ⟨5, 1, 1⟩] 3 1 3 5 =
    some (some 4, [some 0#32, some 1#32, some 2#32, some 4#32, some 4294967295#32]) := by decide +kernel

/-- With buckets of width 1 more rounds are needed. -/
example : dsSample 1 4 [⟨1, 2, 1⟩, ⟨1, 4, 9⟩, ⟨2, 3, 1⟩, ⟨3, 4, 2⟩, ⟨4, 1, 0⟩] 1 1 5 4 =
    some (some 4, [some 0#32, some 1#32, some 2#32, some 4#32]) ∧
    dsSample 1 4 [⟨1, 2, 1⟩, ⟨1, 4, 9⟩, ⟨2, 3, 1⟩, ⟨3, 4, 2⟩, ⟨4, 1, 0⟩] 1 1 4 4 = none := by decide +kernel

/-- C32, the hypothesis on the bucket numbers is needed: with buckets of width 1 vertex 2 at distance `INT_MAX` gets
the bucket number that stands for "not reached", and the loop ends before the edge to vertex 3 is used, although
no sum overflows (3 is at distance 2147483649).  So the claim of C32 does not hold for every graph. -/
theorem delta_stepping_loses_far_vertices :
    dsSample 1 3 [⟨1, 2, 2147483647⟩, ⟨2, 3, 2⟩] 1 1 9 9 =
        some (some 2, [some 0#32, some 2147483647#32, some 4294967295#32]) ∧
      WWalk Int.toNat [⟨1, 2, 2147483647⟩, ⟨2, 3, 2⟩] 1 3 2 2147483649 := by
  refine ⟨by decide +kernel, ?_⟩
  exact WWalk.step (E := Int) (len := Int.toNat) (u := 2) (d := 2147483647) ⟨2, 3, 2⟩
    (WWalk.step (E := Int) (len := Int.toNat) (u := 1) (d := 0) ⟨1, 2, 2147483647⟩ .refl (by simp) rfl rfl) (by simp) rfl rfl

/-- A bucket width of 0 divides by zero as soon as a distance improves. -/
example : dsSample 1 2 [⟨1, 2, 0⟩] 0 1 9 9 = none := by decide +kernel

/-- The hypotheses of the theorem can be met. -/
example : ∃ (le : LoadEnv DsV Int) (els : List (EdgeList Int)), Cfg 40 2 3 ∧ 40 + 3 ≤ IMAX ∧ le.sA.OK ∧ le.sAT.OK ∧
    (le.d = fun _ => DsV.new) ∧ (∀ el ∈ els, el.WF) ∧ els.length = 2 ∧ (∀ el ∈ els, ∀ e ∈ el.list, e.Valid 40) ∧
    NoOverflow (els.map EdgeList.list).flatten 1 40 ∧ (281 ≤ IMAX) ∧
    (∀ v k d, k ≤ 40 → WWalk Int.toNat (els.map EdgeList.list).flatten 1 v k d → d / 1 < 281) ∧
    Reachable (els.map EdgeList.list).flatten 1 39 := by
  have hval : ∀ e ∈ [[⟨1, 2, 5⟩], [⟨2, 39, 6⟩, ⟨40, 1, 7⟩]].flatten (α := Edge Int), 0 ≤ e.val ∧ e.val.toNat ≤ 7 := by
    intro e he
    simp at he
    rcases he with rfl | rfl | rfl <;> decide
  refine ⟨LoadEnv.sample DsV.new 0, [EdgeList.ofList ⟨0, 0, 0⟩ 40 40 [⟨1, 2, 5⟩],
    EdgeList.ofList ⟨0, 0, 0⟩ 40 40 [⟨2, 39, 6⟩, ⟨40, 1, 7⟩]], ⟨by decide, by decide, by decide, by decide⟩,
    by decide, Sorts.ins_ok, Sorts.ins_ok, rfl, ?_, rfl, ?_, ?_, by decide, ?_, ?_⟩
  · intro el hel
    simp at hel
    rcases hel with rfl | rfl <;> exact EdgeList.ofList_wf ..
  · intro el hel e he
    simp at hel
    rcases hel with rfl | rfl <;> rw [EdgeList.ofList_list] at he <;> simp at he
    · subst he; simp [Edge.Valid]
    · rcases he with rfl | rfl <;> simp [Edge.Valid]
  · simp only [List.map_cons, List.map_nil, EdgeList.ofList_list]
    exact NoOverflow.of_bound (fun e he => (hval e he).1) (fun e he => (hval e he).2) (by decide)
  · intro v k d hk hw
    simp only [List.map_cons, List.map_nil, EdgeList.ofList_list] at hw
    have := hw.le_mul (fun e he => (hval e he).2)
    omega
  · simp only [List.map_cons, List.map_nil, EdgeList.ofList_list]
    exact ⟨2, Walk.step (E := Int) (u := 2) ⟨2, 39, 6⟩ (Walk.step (E := Int) (u := 1) ⟨1, 2, 5⟩ .refl (by simp) rfl rfl) (by simp) rfl rfl⟩

end GraphMat

import Verif.Lemmas.ApplyStep
import Verif.Spec.Superstep

namespace GraphMat

variable {α S T U V E : Type}

/-! ### Cells of other ranks -/

theorem eachRank_some {σ : Type} {d d' : Arr σ} {f : Nat → σ → Option σ} (h : eachRank d f = some d') :
    d'.size = d.size ∧ ∀ r, r < d.size → f r (d.get r) = some (d'.get r) := by
  unfold eachRank at h
  suffices key : ∀ k, k ≤ d.size → ∀ d', forLoop 0 k d (fun r d => (d.read r).bind (fun x => (f r x).bind
      (fun y => d.write r y))) = some d' → d'.size = d.size ∧
      (∀ r, r < k → f r (d.get r) = some (d'.get r)) ∧ ∀ r, k ≤ r → d'.get r = d.get r by
    have := key d.size (Nat.le_refl _) d' h
    exact ⟨this.1, this.2.1⟩
  intro k
  induction k with
  | zero =>
    intro _ d' h
    rw [forLoop_empty (Nat.le_refl _)] at h
    injection h with h
    subst h
    exact ⟨rfl, by intro r hr; omega, fun _ _ => rfl⟩
  | succ k ih =>
    intro hk d' h
    rw [forLoop_succ_right (by omega)] at h
    cases h1 : forLoop 0 k d (fun r d => (d.read r).bind (fun x => (f r x).bind
      (fun y => d.write r y))) with
    | none => rw [h1] at h; cases h
    | some d1 =>
      rw [h1] at h
      obtain ⟨e1, e2, e3⟩ := ih (by omega) d1 h1
      simp only [Option.bind_some] at h
      rw [Arr.read_some (by omega), Option.bind_some, e3 k (Nat.le_refl _)] at h
      cases hf : f k (d.get k) with
      | none => rw [hf] at h; cases h
      | some y =>
        rw [hf, Option.bind_some, Arr.write_some (by omega)] at h
        injection h with h
        subst h
        refine ⟨by simpa using e1, ?_, ?_⟩
        · intro r hr
          by_cases e : r = k
          · subst e; rw [Arr.upd_get_self]; exact hf
          · rw [Arr.upd_get_ne _ _ e]; exact e2 r (by omega)
        · intro r hr
          rw [Arr.upd_get_ne _ _ (by omega)]; exact e3 r (by omega)

/-- The copies on ranks that do not own them hold nothing. -/
def DVec.Others (nseg nrank : Nat) (d : DVec α) : Prop :=
  ∀ r p, r < nrank → p < nseg → p % nrank ≠ r → ∀ i, (d.cell (r, p)).view i = none

theorem DVec.clear_quiet {n nseg nrank : Nat} {d d' : DVec α} (h : d.WF n nseg nrank) (hr : 0 < nrank)
    (ho : d.Others nseg nrank) (hc : d.clear = some d') : d'.Quiet nseg nrank := by
  unfold DVec.clear at hc
  obtain ⟨e1, e2⟩ := eachRank_some hc
  rw [h.size] at e1 e2
  have key : ∀ r, r < nrank → (∀ p, p < nseg → p % nrank = r → ((d'.get r).segs.get p).received = []) ∧
      ∀ p, p % nrank ≠ r → (d'.get r).segs.get p = (d.get r).segs.get p := by
    intro r hrr
    obtain ⟨v', a1, a2, a3, a4⟩ := SpVec.forOwned_spec (h.rank r hrr) hr (f := fun _ s => some s.setUninitialized)
      (P := fun _ s' => s'.received = []) (by
        intro p hp _
        exact ⟨_, rfl, Segment.setUninitialized_WF ((h.rank r hrr).seg p hp), rfl, rfl⟩)
    have := e2 r hrr
    unfold SpVec.clear at this
    rw [a1] at this
    injection this with this
    rw [← this]
    exact ⟨fun p hp e => (a3 p hp e).2, a4⟩
  refine ⟨?_, ?_⟩
  · intro p hp
    exact (key (p % nrank) (Nat.mod_lt _ hr)).1 p hp rfl
  · intro r p hrr hp hne i
    unfold DVec.cell
    simp only
    rw [(key r hrr).2 p hne]
    exact ho r p hrr hp hne i

theorem DVec.setAll_others {n nseg nrank : Nat} {d d' : DVec α} (h : d.WF n nseg nrank) (hr : 0 < nrank)
    {g : Nat → Nat → Fresh α} {x : Nat → α} (ho : d.Others nseg nrank)
    (hc : eachRank d (fun r v => v.setAll (g r) (x r)) = some d') : d'.Others nseg nrank := by
  obtain ⟨e1, e2⟩ := eachRank_some hc
  rw [h.size] at e1 e2
  intro r p hrr hp hne i
  obtain ⟨v', a1, a2, a3, a4⟩ := SpVec.setAll_spec (h.rank r hrr) hr (g r) (x r)
  have := e2 r hrr
  rw [a1] at this
  injection this with this
  unfold DVec.cell
  simp only
  rw [← this, a4 p hne]
  exact ho r p hrr hp hne i

/-- The invariant of the scratch vectors. -/
structure Scratch (n nrank : Nat) (x : DVec T) (y : DVec U) : Prop where
  wx : x.WF n nrank nrank
  wy : y.WF n nrank nrank
  others : y.Others nrank nrank

theorem Graph.newScratch_spec {n nrank threads : Nat} (c : Cfg n nrank threads) {G : Graph V E}
    (hG : G.toVGraph.Inv n nrank threads) (env : InitEnv T U) :
    ∃ x y, G.newScratch env = some (x, y) ∧ Scratch n nrank x y := by
  unfold Graph.newScratch
  rw [hG.hn, hG.hr]
  obtain ⟨x0, a1, a2, _⟩ := DVec.new_spec (α := T) n nrank nrank c.rpos
  obtain ⟨x1, b1, b2, _, _⟩ := DVec.setAll_spec a2 c.rpos env.gx env.t
  obtain ⟨y0, c1, c2, c3⟩ := DVec.new_spec (α := U) n nrank nrank c.rpos
  obtain ⟨y1, d1, d2, _, _⟩ := DVec.setAll_spec c2 c.rpos env.gy env.u
  rw [a1]
  simp only [Option.bind_eq_bind, Option.bind_some]
  rw [b1, c1]
  simp only [Option.bind_some]
  rw [d1]
  refine ⟨x1, y1, rfl, b2, d2, DVec.setAll_others c2 c.rpos ?_ d1⟩
  intro r p hr hp _ i
  unfold DVec.cell
  simp only
  rw [c3 r p hr hp]; rfl

/-! ### Messages in user ids -/

/-- Both ends of the edge are vertices of a graph with `n` vertices. -/
def Edge.Valid (n : Nat) (e : Edge E) : Prop := 1 ≤ e.src ∧ e.src ≤ n ∧ 1 ≤ e.dst ∧ e.dst ≤ n

theorem v2n_cast_iff {np n d : Nat} {s : Int} (hnp : 0 < np) (h1 : 1 ≤ s) (hd : 1 ≤ d) :
    ((v2n np n s.toNat : Nat) : Int) = ((v2n np n d : Nat) : Int) ↔ s = (d : Int) := by
  constructor
  · intro h
    have := v2n_inj (n := n) hnp (u := s.toNat) (by omega) hd (by omega)
    omega
  · intro h
    rw [h, Int.toNat_natCast]

theorem incoming_swap {np n d : Nat} (hnp : 0 < np) {es : List (Edge E)} (hv : ∀ e ∈ es, e.Valid n) {xs : Nat → Option T}
    {P : Nat → V} {A : Nat → Bool} {msg : V → T} {proc : T → E → V → U} {pm : Nat → E → T → U} (hd : 1 ≤ d)
    (hxs : ∀ u, 1 ≤ u → u ≤ n → xs (v2n np n u) = if A u then some (msg (P u)) else none)
    (hpm : ∀ e x, pm (v2n np n d) e x = proc x e (P d)) :
    incoming xs pm ((es.map (nativeEdge np n)).map swapEdge) (v2n np n d) = outMsgs msg proc es P A d := by
  unfold incoming outMsgs
  rw [List.map_map, List.filterMap_map]
  apply List.filterMap_congr
  intro e he
  obtain ⟨h1, h2, h3, h4⟩ := hv e he
  simp only [Function.comp, swapEdge, nativeEdge, v2n_cast_iff hnp h3 hd, Int.toNat_natCast]
  by_cases hc : e.dst = (d : Int)
  · rw [if_pos hc, hxs _ (by omega) (by omega)]
    cases hA : A e.src.toNat
    · simp
    · simp [hc, hpm]
  · rw [if_neg hc, if_neg (fun h => hc h.1)]

theorem incoming_same {np n d : Nat} (hnp : 0 < np) {es : List (Edge E)} (hv : ∀ e ∈ es, e.Valid n) {xs : Nat → Option T}
    {P : Nat → V} {A : Nat → Bool} {msg : V → T} {proc : T → E → V → U} {pm : Nat → E → T → U} (hd : 1 ≤ d)
    (hxs : ∀ u, 1 ≤ u → u ≤ n → xs (v2n np n u) = if A u then some (msg (P u)) else none)
    (hpm : ∀ e x, pm (v2n np n d) e x = proc x e (P d)) :
    incoming xs pm (es.map (nativeEdge np n)) (v2n np n d) = inMsgs msg proc es P A d := by
  unfold incoming inMsgs
  rw [List.filterMap_map]
  apply List.filterMap_congr
  intro e he
  obtain ⟨h1, h2, h3, h4⟩ := hv e he
  simp only [Function.comp, nativeEdge, v2n_cast_iff hnp h1 hd, Int.toNat_natCast]
  by_cases hc : e.src = (d : Int)
  · rw [if_pos hc, hxs _ (by omega) (by omega)]
    cases hA : A e.dst.toNat
    · simp
    · simp [hc, hpm]
  · rw [if_neg hc, if_neg (fun h => hc h.1)]

/-! ### One product -/

/-- `msg` and `proc` describe what the program's functions compute when the calls without vertex property
get the objects `env.dummy` instead. -/
structure GProg.Eff (gp : GProg T U V E) (env : MulEnv T U V) (msg : V → T) (proc : T → E → V → U) : Prop where
  send : ∀ p old, (gp.send p old).2 = msg p
  process : gp.needsProp = true → ∀ t e v old, gp.process t e v old = proc t e v
  dummy : gp.needsProp = false → ∀ i j p nz t e v old, gp.process t e (env.dummy i j p nz) old = proc t e v

theorem GProg.Pure.eff {gp : GProg T U V E} {msg : V → T} {proc : T → E → V → U} (h : gp.Pure msg proc)
    (env : MulEnv T U V) : gp.Eff env msg proc :=
  ⟨h.send, fun _ => h.process, fun hn i j p nz t e v old => by rw [h.process, h.noProp hn t e _ v]⟩

/-- The value the product leaves in row `w`, in the order in which the code combines. -/
def productRes (reduce : U → U → U) (n nrank : Nat) (Tm : Nat → Nat → Tile E) (Pm : Nat → Nat → Nat → List (Col E))
    (xs : Nat → Option T) (pm : Nat → E → T → U) (a : Option U) (w : Nat) : Option U :=
  rowFold reduce n nrank nrank (rowPairsOf n n nrank nrank nrank (own2d nrank) Tm) a
    (fun r => incoming xs pm (rankEdges n n nrank nrank (own2d nrank) Tm Pm r) w) w

/-- What is known after a product with `m`. -/
structure ProductOk (n nrank : Nat) (x x' : DVec T) (vp vp' : DVec V) (y' : DVec U) : Prop where
  wx : x'.WF n nrank nrank
  xr : x'.Ready nrank nrank
  xs : ∀ w, x'.sem n nrank nrank w = x.sem n nrank nrank w
  wv : vp'.WF n nrank nrank
  vr : vp'.Ready nrank nrank
  vs : ∀ w, vp'.sem n nrank nrank w = vp.sem n nrank nrank w
  wy : y'.WF n nrank nrank
  yr : y'.Ready nrank nrank
  yq : y'.Quiet nrank nrank

theorem Graph.spmv_spec {n nrank threads : Nat} (c : Cfg n nrank threads) (env : MulEnv T U V) {gp : GProg T U V E}
    {msg : V → T} {proc : T → E → V → U} (hp : gp.Eff env msg proc) {G : Graph V E} (hG : G.toVGraph.Inv n nrank threads)
    {m : DMat E} {Tm : Nat → Nat → Tile E} {Pm : Nat → Nat → Nat → List (Col E)} {all : List (Edge E)}
    (hm : m.Rep n n nrank nrank nrank (own2d nrank) Tm Pm all) {vm : Nat → V}
    (hvm : ∀ w, 1 ≤ w → w ≤ n → G.vp.sem n nrank nrank w = some (vm w))
    {x : DVec T} {y : DVec U} (hx : x.WF n nrank nrank) (rx : x.Ready nrank nrank) (hy : y.WF n nrank nrank)
    (hq : y.Quiet nrank nrank) :
    ∃ (x' : DVec T) (vp' : DVec V) (y' : DVec U), G.spmv env gp m x y = some (x', vp', y') ∧
      ProductOk n nrank x x' G.vp vp' y' ∧
      (∀ w, 1 ≤ w → w ≤ n → ∀ l0, Reduces gp.reduce l0 (y.sem n nrank nrank w) →
        Reduces gp.reduce (l0 ++ incoming (x.sem n nrank nrank) (fun w e x => proc x e (vm w)) all w)
          (y'.sem n nrank nrank w)) ∧
      (∀ w, 1 ≤ w → w ≤ n → y'.sem n nrank nrank w = productRes gp.reduce n nrank Tm Pm (x.sem n nrank nrank)
        (fun w e x => proc x e (vm w)) (y.sem n nrank nrank w) w) := by
  unfold Graph.spmv
  rw [hG.hr, hG.ht]
  have how := fun i j => (own2d_spec c.rpos i j).2
  have hadd : addfn gp = gp.reduce := rfl
  by_cases hn : gp.needsProp = true
  · rw [if_pos hn]
    obtain ⟨x', vp', y', a1, a2, a3, a4, a5, a6, a7, a8, a9, a10, a11, a12⟩ := DMat.spmspv3_spec hm c.rpos c.rpos c.rpos
      how c.tpos env (mul := mulfn3 gp) (pm := fun e x v => proc x e v) (by
        intro e x v old; exact hp.process hn x e v old) (addfn gp) hx rx hG.vp hG.vpReady hvm hy hq
    exact ⟨x', vp', y', a1, ⟨a2, a3, a4, a5, a6, a7, a8, a9, a10⟩, a11, a12⟩
  · rw [if_neg hn]
    have hnp := hp.dummy (by simpa using hn)
    have hsame : ∀ t e v v', proc t e v = proc t e v' := by
      intro t e v v'
      rw [← hnp 0 0 0 0 t e v (env.tmp 0 0 0 0), ← hnp 0 0 0 0 t e v' (env.tmp 0 0 0 0)]
    obtain ⟨x', y', a1, a2, a3, a4, a8, a9, a10, a11, a12⟩ := DMat.spmspv_spec hm c.rpos c.rpos c.rpos how c.tpos env
      (mul := fun i j p nz => mulfn gp (env.dummy i j p nz)) (pm := fun e x => proc x e (env.dummy 0 0 0 0)) (by
        intro i j p nz e x old
        exact hnp i j p nz x e _ old) (addfn gp) hx rx hy hq
    have hinc : (fun (_ : Nat) e x => proc x e (env.dummy 0 0 0 0)) = (fun w e x => proc x e (vm w)) := by
      funext w e x
      exact hsame _ _ _ _
    refine ⟨x', G.vp, y', ?_, ⟨a2, a3, a4, hG.vp, hG.vpReady, fun _ => rfl, a8, a9, a10⟩, ?_, ?_⟩
    · rw [a1]; rfl
    · intro w h1 h2 l0 hl0
      have := a11 w h1 h2 l0 hl0
      rw [hinc] at this; exact this
    · intro w h1 h2
      have := a12 w h1 h2
      rw [hinc] at this; exact this

/-! ### Supersteps -/

/-- The graph holds the edges `es` (user ids), properties `P` and active set `A`. -/
structure Graph.Has (G : Graph V E) (n nrank threads : Nat) (TA TT : Nat → Nat → Tile E)
    (PA PT : Nat → Nat → Nat → List (Col E)) (es : List (Edge E)) (P : Nat → V) (A : Nat → Bool) : Prop where
  valid : ∀ e ∈ es, e.Valid n
  holds : G.Holds n nrank threads TA TT PA PT (es.map (nativeEdge (threads * 16 * nrank) n))
  props : G.toVGraph.Props n nrank threads P
  acts : G.toVGraph.Acts n nrank threads A

theorem userSem_native {n nrank threads : Nat} (c : Cfg n nrank threads) {d : DVec α} {f : Nat → Option α}
    (h : ∀ v, 1 ≤ v → v ≤ n → userSem n nrank threads d v = f v) {w : Nat} (h1 : 1 ≤ w) (h2 : w ≤ n) :
    d.sem n nrank nrank w = f (n2v (threads * 16 * nrank) n w) := by
  have hr := n2v_range (np := threads * 16 * nrank) h1 h2
  have := h (n2v (threads * 16 * nrank) n w) hr.1 hr.2
  unfold userSem at this
  rw [v2n_n2v c.nppos h1] at this
  exact this

/-- The messages in `x`, by internal id. -/
def nativeMsgs (np n : Nat) (msg : V → T) (P : Nat → V) (A : Nat → Bool) (w : Nat) : Option T :=
  if 1 ≤ w ∧ w ≤ n ∧ A (n2v np n w) = true then some (msg (P (n2v np n w))) else none

/-- The reduced value of vertex `d` in one superstep, in the order in which the code combines. -/
def exactRes (gp : GProg T U V E) (msg : V → T) (proc : T → E → V → U) (n nrank threads : Nat) (TA TT : Nat → Nat → Tile E)
    (PA PT : Nat → Nat → Nat → List (Col E)) (P : Nat → V) (A : Nat → Bool) (d : Nat) : Option U :=
  let np := threads * 16 * nrank
  let xs := nativeMsgs np n msg P A
  let pm := fun w e x => proc x e (P (n2v np n w))
  let w := v2n np n d
  match gp.order with
  | .out => productRes gp.reduce n nrank TT PT xs pm none w
  | .inn => productRes gp.reduce n nrank TA PA xs pm none w
  | .all => productRes gp.reduce n nrank TA PA xs pm (productRes gp.reduce n nrank TT PT xs pm none w) w

theorem sem_nativeMsgs {n nrank threads : Nat} (c : Cfg n nrank threads) {x : DVec T} {msg : V → T} {P : Nat → V}
    {A : Nat → Bool} (hxs : ∀ u, 1 ≤ u → u ≤ n → userSem n nrank threads x u = if A u then some (msg (P u)) else none) :
    x.sem n nrank nrank = nativeMsgs (threads * 16 * nrank) n msg P A := by
  funext w
  unfold nativeMsgs
  by_cases hw : 1 ≤ w ∧ w ≤ n
  · rw [userSem_native c hxs hw.1 hw.2]
    by_cases hA : A (n2v (threads * 16 * nrank) n w) = true
    · rw [if_pos hA, if_pos ⟨hw.1, hw.2, hA⟩]
    · rw [if_neg hA, if_neg (fun h => hA h.2.2)]
  · rw [if_neg (fun h => hw ⟨h.1, h.2.1⟩)]
    unfold DVec.sem
    cases hg : getPartition n nrank w with
    | none => rfl
    | some p =>
      exfalso
      obtain ⟨a, b, d⟩ := getPartition_some hg
      have := bnd_le (n := n) (nseg := nrank) (i := p + 1)
      omega

theorem Graph.products_spec {n nrank threads : Nat} (c : Cfg n nrank threads) (env : StepEnv T U V) {gp : GProg T U V E}
    {msg : V → T} {proc : T → E → V → U} (hp1 : gp.Eff env.m1 msg proc) (hp2 : gp.Eff env.m2 msg proc) {G : Graph V E}
    {TA TT : Nat → Nat → Tile E}
    {PA PT : Nat → Nat → Nat → List (Col E)} {es : List (Edge E)} {P : Nat → V} {A : Nat → Bool}
    (hG : G.Has n nrank threads TA TT PA PT es P A) {x : DVec T} {y : DVec U} (hx : x.WF n nrank nrank)
    (rx : x.Ready nrank nrank) (hxs : ∀ u, 1 ≤ u → u ≤ n → userSem n nrank threads x u =
      if A u then some (msg (P u)) else none) (hy : y.WF n nrank nrank) (hq : y.Quiet nrank nrank)
    (hy0 : ∀ w, y.sem n nrank nrank w = none) :
    ∃ (x' : DVec T) (vp' : DVec V) (y' : DVec U), G.products env gp x y = some (x', vp', y') ∧
      ProductOk n nrank x x' G.vp vp' y' ∧
      (∀ d, 1 ≤ d → d ≤ n → Reduces gp.reduce (inbox gp.order msg proc es P A d) (userSem n nrank threads y' d)) ∧
      (∀ d, 1 ≤ d → d ≤ n → userSem n nrank threads y' d = exactRes gp msg proc n nrank threads TA TT PA PT P A d) := by
  have hvm : ∀ w, 1 ≤ w → w ≤ n → G.vp.sem n nrank nrank w = some (P (n2v (threads * 16 * nrank) n w)) :=
    fun w h1 h2 => userSem_native c (f := fun v => some (P v)) hG.props h1 h2
  have hpm : ∀ d, 1 ≤ d → ∀ (e : E) (x : T), (fun w e x => proc x e (P (n2v (threads * 16 * nrank) n w)))
      (v2n (threads * 16 * nrank) n d) e x = proc x e (P d) := by
    intro d hd e x
    simp only
    rw [n2v_v2n c.nppos hd]
  have hnone : ∀ w, Reduces gp.reduce [] (y.sem n nrank nrank w) := by
    intro w; rw [hy0]; exact Reduces.nil _
  have hxn := sem_nativeMsgs c hxs
  unfold Graph.products exactRes
  cases ho : gp.order with
  | out =>
    obtain ⟨x', vp', y', a1, a2, a3, a4⟩ := Graph.spmv_spec c env.m1 hp1 hG.holds.inv hG.holds.AT hvm hx rx hy hq
    refine ⟨x', vp', y', a1, a2, ?_, ?_⟩
    · intro d h1 h2
      have hw := (c.native h1 h2).2
      have := a3 _ hw.1 hw.2 [] (hnone _)
      rw [List.nil_append, incoming_swap c.nppos hG.valid h1 hxs (hpm d h1)] at this
      exact this
    · intro d h1 h2
      have hw := (c.native h1 h2).2
      have := a4 _ hw.1 hw.2
      rw [hy0, hxn] at this
      exact this
  | inn =>
    obtain ⟨x', vp', y', a1, a2, a3, a4⟩ := Graph.spmv_spec c env.m1 hp1 hG.holds.inv hG.holds.A hvm hx rx hy hq
    refine ⟨x', vp', y', a1, a2, ?_, ?_⟩
    · intro d h1 h2
      have hw := (c.native h1 h2).2
      have := a3 _ hw.1 hw.2 [] (hnone _)
      rw [List.nil_append, incoming_same c.nppos hG.valid h1 hxs (hpm d h1)] at this
      exact this
    · intro d h1 h2
      have hw := (c.native h1 h2).2
      have := a4 _ hw.1 hw.2
      rw [hy0, hxn] at this
      exact this
  | all =>
    obtain ⟨x1, vp1, y1, a1, a2, a3, a4⟩ := Graph.spmv_spec c env.m1 hp1 hG.holds.inv hG.holds.AT hvm hx rx hy hq
    have hinv1 : ({ G with vp := vp1 } : Graph V E).toVGraph.Inv n nrank threads :=
      ⟨hG.holds.inv.hn, hG.holds.inv.hr, hG.holds.inv.ht, a2.wv, a2.vr, hG.holds.inv.act, hG.holds.inv.actReady⟩
    obtain ⟨x2, vp2, y2, b1, b2, b3, b4⟩ := Graph.spmv_spec c env.m2 hp2 (G := { G with vp := vp1 }) hinv1 hG.holds.A
      (vm := fun w => P (n2v (threads * 16 * nrank) n w)) (by
        intro w h1 h2
        show vp1.sem n nrank nrank w = _
        rw [a2.vs, hvm w h1 h2]) a2.wx a2.xr a2.wy a2.yq
    have hx1 : x1.sem n nrank nrank = x.sem n nrank nrank := funext a2.xs
    refine ⟨x2, vp2, y2, ?_, ⟨b2.wx, b2.xr, fun w => by rw [b2.xs, a2.xs], b2.wv, b2.vr,
      fun w => by rw [b2.vs]; exact a2.vs w, b2.wy, b2.yr, b2.yq⟩, ?_, ?_⟩
    · simp only [Option.bind_eq_bind]
      rw [a1]
      exact b1
    · intro d h1 h2
      have hw := (c.native h1 h2).2
      have e1 := a3 _ hw.1 hw.2 [] (hnone _)
      have e2 := b3 _ hw.1 hw.2 _ e1
      rw [List.nil_append, hx1, incoming_swap c.nppos hG.valid h1 hxs (hpm d h1), incoming_same c.nppos hG.valid h1
        hxs (hpm d h1)] at e2
      exact e2
    · intro d h1 h2
      have hw := (c.native h1 h2).2
      have := b4 _ hw.1 hw.2
      rw [a4 _ hw.1 hw.2, hx1, hy0, hxn] at this
      exact this

theorem Graph.superstep_spec {n nrank threads : Nat} (c : Cfg n nrank threads) (env : StepEnv T U V)
    {gp : GProg T U V E} {msg : V → T} {proc : T → E → V → U} (hp1 : gp.Eff env.m1 msg proc)
    (hp2 : gp.Eff env.m2 msg proc) (act : Bool) {G : Graph V E}
    {TA TT : Nat → Nat → Tile E} {PA PT : Nat → Nat → Nat → List (Col E)} {es : List (Edge E)} {P : Nat → V}
    {A : Nat → Bool} (hG : G.Has n nrank threads TA TT PA PT es P A) {x : DVec T} {y : DVec U}
    (hs : Scratch n nrank x y) :
    ∃ G' x' y' conv, G.superstep env gp act x y = some (G', x', y', conv) ∧ Scratch n nrank x' y' ∧
      (let res := exactRes gp msg proc n nrank threads TA TT PA PT P A
       G'.Has n nrank threads TA TT PA PT es (fun d => afterApply gp.apply (P d) (res d))
        (fun d => act || gotChanged gp.apply gp.ne (P d) (res d)) ∧
       (∀ d, 1 ≤ d → d ≤ n → Reduces gp.reduce (inbox gp.order msg proc es P A d) (res d)) ∧
       (conv = true ↔ ∀ d, 1 ≤ d → d ≤ n → gotChanged gp.apply gp.ne (P d) (res d) = false)) := by
  obtain ⟨x1, a1, a2, a3⟩ := DVec.clear_spec hs.wx c.rpos
  obtain ⟨y1, b1, b2, b3⟩ := DVec.clear_spec hs.wy c.rpos
  have b4 := DVec.clear_quiet hs.wy c.rpos hs.others b1
  have inv := hG.holds.inv
  obtain ⟨x2, d1, d2, d3, stale, d4⟩ := DVec.intersectReduce_spec inv.act inv.vp a2 c.rpos inv.actReady inv.vpReady
    env.gx (sendWrapper gp)
  have hxs : ∀ u, 1 ≤ u → u ≤ n → userSem n nrank threads x2 u = if A u then some (msg (P u)) else none := by
    intro u h1 h2
    unfold userSem
    rw [d4]
    have e1 := hG.acts u h1 h2
    have e2 := hG.props u h1 h2
    unfold userSem at e1 e2
    rw [e1, e2]
    cases A u
    · rfl
    · simp only [if_true, sendWrapper, hp1.send]
  have hy0 : ∀ w, y1.sem n nrank nrank w = none := by
    intro w
    unfold DVec.sem
    cases hg : getPartition n nrank w with
    | none => rfl
    | some p => exact b3 p (getPartition_some hg).1 _
  obtain ⟨x3, vp', y', e1, e2, e3, e4⟩ := Graph.products_spec c env hp1 hp2 hG d2 d3 hxs b2 b4 hy0
  obtain ⟨ac, f1, f2, f3, f4⟩ := DVec.setAllInactive_spec inv.act c.rpos env.ga
  obtain ⟨vp2, ac2, conv, g1, g2, g3, g4, g5, g6, g7, g8⟩ := applyAllRanks_spec (gp := gp) c.rpos c.rpos e2.wy e2.wv f2 e2.yr
    e2.vr f3 (vm := fun w => P (n2v (threads * 16 * nrank) n w)) (by
      intro w h1 h2
      rw [e2.vs]
      exact userSem_native c (f := fun v => some (P v)) hG.props h1 h2)
  -- the vertex data after the apply phase
  have inv1 : ({ G with vp := vp2, active := ac2 } : Graph V E).toVGraph.Inv n nrank threads :=
    ⟨inv.hn, inv.hr, inv.ht, g2, g4, g3, g5⟩
  have hP : ∀ d, 1 ≤ d → d ≤ n → userSem n nrank threads vp2 d =
      some (afterApply gp.apply (P d) (userSem n nrank threads y' d)) := by
    intro d h1 h2
    have hw := (c.native h1 h2).2
    have := g6 _ hw.1 hw.2
    rw [n2v_v2n c.nppos h1] at this
    unfold userSem
    rw [this]
    cases y'.sem n nrank nrank (v2n (threads * 16 * nrank) n d) <;> rfl
  have hac : ∀ w, 1 ≤ w → w ≤ n → ac.sem n nrank nrank w = none := by
    intro w h1 h2
    obtain ⟨p, hp, hlt, _⟩ := locate c.rpos h1 h2
    rw [DVec.sem_of hp, f4 p hlt]
  have hA : ∀ d, 1 ≤ d → d ≤ n → userSem n nrank threads ac2 d =
      if gotChanged gp.apply gp.ne (P d) (userSem n nrank threads y' d) then some true else none := by
    intro d h1 h2
    have hw := (c.native h1 h2).2
    have := g7 _ hw.1 hw.2
    rw [n2v_v2n c.nppos h1, hac _ hw.1 hw.2] at this
    unfold userSem
    rw [this]
    cases y'.sem n nrank nrank (v2n (threads * 16 * nrank) n d) <;> rfl
  have hconv : conv = true ↔ ∀ d, 1 ≤ d → d ≤ n →
      gotChanged gp.apply gp.ne (P d) (userSem n nrank threads y' d) = false := by
    rw [g8]
    constructor
    · intro h d h1 h2
      have hw := (c.native h1 h2).2
      have := h _ hw.1 hw.2
      rw [n2v_v2n c.nppos h1] at this
      unfold userSem
      cases hy : y'.sem n nrank nrank (v2n (threads * 16 * nrank) n d) with
      | none => rfl
      | some u => exact this u hy
    · intro h w h1 h2 u hu
      have hr := n2v_range (np := threads * 16 * nrank) h1 h2
      have := h _ hr.1 hr.2
      unfold userSem at this
      rw [v2n_n2v c.nppos h1, hu] at this
      exact this
  unfold Graph.superstep
  simp only [Option.bind_eq_bind]
  rw [a1, Option.bind_some, b1, Option.bind_some, d1, Option.bind_some, e1, Option.bind_some, f1, Option.bind_some]
  simp only
  rw [g1]
  simp only [Option.bind_some]
  have hred : ∀ d, 1 ≤ d → d ≤ n → Reduces gp.reduce (inbox gp.order msg proc es P A d)
      (exactRes gp msg proc n nrank threads TA TT PA PT P A d) := by
    intro d h1 h2
    have := e3 d h1 h2
    rw [e4 d h1 h2] at this
    exact this
  have hconv' : conv = true ↔ ∀ d, 1 ≤ d → d ≤ n →
      gotChanged gp.apply gp.ne (P d) (exactRes gp msg proc n nrank threads TA TT PA PT P A d) = false := by
    rw [hconv]
    constructor <;> intro h d h1 h2
    · rw [← e4 d h1 h2]; exact h d h1 h2
    · rw [e4 d h1 h2]; exact h d h1 h2
  cases act with
  | false =>
    refine ⟨_, x3, y', conv, rfl, ⟨e2.wx, e2.wy, e2.yq.2⟩, ⟨hG.valid, ⟨inv1, hG.holds.A, hG.holds.AT⟩, ?_, ?_⟩,
      hred, hconv'⟩
    · intro d h1 h2
      have := hP d h1 h2
      rw [e4 d h1 h2] at this
      exact this
    · intro d h1 h2
      have := hA d h1 h2
      rw [e4 d h1 h2] at this
      simpa using this
  | true =>
    obtain ⟨G', k1, k2, k3, k4⟩ := VGraph.setAllActive_spec c inv1 env.gb
    rw [if_pos rfl, k1]
    simp only [Option.bind_some]
    refine ⟨_, x3, y', conv, rfl, ⟨e2.wx, e2.wy, e2.yq.2⟩, ⟨hG.valid, ⟨k2, hG.holds.A, hG.holds.AT⟩, ?_, ?_⟩,
      hred, hconv'⟩
    · intro d h1 h2
      show userSem n nrank threads G'.vp d = _
      rw [k3]
      have := hP d h1 h2
      rw [e4 d h1 h2] at this
      exact this
    · intro d h1 h2
      have := k4 d h1 h2
      simpa using this

end GraphMat

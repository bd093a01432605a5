import Verif.Model.App
import Verif.Lemmas.StepRel
import Verif.Lemmas.MapReduce
import Verif.Props.Vertex

namespace GraphMat

variable {V E α σ : Type}

theorem eachRank_congr {d : Arr σ} {f f' : Nat → σ → Option σ}
    (h : ∀ r, r < d.size → f r (d.get r) = f' r (d.get r)) : eachRank d f = eachRank d f' := by
  unfold eachRank
  suffices key : ∀ k, k ≤ d.size →
      forLoop 0 k d (fun r d => (d.read r).bind (fun x => (f r x).bind (fun y => d.write r y))) =
      forLoop 0 k d (fun r d => (d.read r).bind (fun x => (f' r x).bind (fun y => d.write r y))) ∧
      ∀ d', forLoop 0 k d (fun r d => (d.read r).bind (fun x => (f r x).bind (fun y => d.write r y))) = some d' →
        d'.size = d.size ∧ ∀ r, k ≤ r → d'.get r = d.get r from (key d.size (Nat.le_refl _)).1
  intro k
  induction k with
  | zero =>
    intro _
    refine ⟨by rw [forLoop_empty (Nat.le_refl _), forLoop_empty (Nat.le_refl _)], ?_⟩
    intro d' h
    rw [forLoop_empty (Nat.le_refl _)] at h
    injection h with h
    subst h
    exact ⟨rfl, fun _ _ => rfl⟩
  | succ k ih =>
    intro hk
    obtain ⟨e1, e2⟩ := ih (by omega)
    rw [forLoop_succ_right (by omega), forLoop_succ_right (by omega), ← e1]
    cases h1 : forLoop 0 k d (fun r d => (d.read r).bind (fun x => (f r x).bind (fun y => d.write r y))) with
    | none => exact ⟨rfl, fun _ h => by cases h⟩
    | some d1 =>
      obtain ⟨s1, s2⟩ := e2 d1 h1
      simp only [Option.bind_some]
      rw [Arr.read_some (by omega)]
      simp only [Option.bind_some]
      rw [s2 k (Nat.le_refl _), h k (by omega)]
      refine ⟨rfl, ?_⟩
      intro d' hd'
      cases h2 : f' k (d.get k) with
      | none => rw [h2] at hd'; cases hd'
      | some y =>
        rw [h2] at hd'
        simp only [Option.bind_some] at hd'
        rw [Arr.write_some (by omega)] at hd'
        injection hd' with hd'
        subst hd'
        refine ⟨by simpa using s1, ?_⟩
        intro r hr
        rw [Arr.upd_get_ne _ _ (by omega)]
        exact s2 r (by omega)

theorem eachRank_id {d : Arr σ} {f : Nat → σ → Option σ} (h : ∀ r, r < d.size → f r (d.get r) = some (d.get r)) :
    ∃ d', eachRank d f = some d' ∧ d'.size = d.size ∧ ∀ r, r < d.size → d'.get r = d.get r := by
  obtain ⟨d', h1, h2, h3⟩ := eachRank_spec (d := d) (f := f) (P := fun r y => y = d.get r)
    (fun r hr => ⟨_, h r hr, rfl⟩)
  exact ⟨d', h1, h2, fun r hr => (h3 r hr).2⟩

theorem DVec.WF.ext {n nseg nrank : Nat} {d d' : DVec α} (h : d.WF n nseg nrank) (hsz : d'.size = d.size)
    (he : ∀ r, r < d.size → d'.get r = d.get r) : d'.WF n nseg nrank := by
  refine ⟨by rw [hsz]; exact h.size, fun r hr => ?_⟩
  rw [he r (by rw [h.size]; exact hr)]
  exact h.rank r hr

theorem DVec.own_ext {n nseg nrank : Nat} {d d' : DVec α} (h : d.WF n nseg nrank) (hr : 0 < nrank)
    (he : ∀ r, r < d.size → d'.get r = d.get r) (p : Nat) : d'.own nrank p = d.own nrank p := by
  unfold DVec.own
  rw [he _ (by rw [h.size]; exact Nat.mod_lt _ hr)]

theorem DVec.sem_ext {n nseg nrank : Nat} {d d' : DVec α} (h : d.WF n nseg nrank) (hr : 0 < nrank)
    (he : ∀ r, r < d.size → d'.get r = d.get r) (w : Nat) : d'.sem n nseg nrank w = d.sem n nseg nrank w := by
  unfold DVec.sem
  cases getPartition n nseg w with
  | none => rfl
  | some p => simp only [DVec.own_ext h hr he]

section
variable {n nrank threads : Nat} (c : Cfg n nrank threads) {G : VGraph V} (hG : G.Inv n nrank threads)
  {P : Nat → V} (hP : G.Props n nrank threads P)
include c hG hP

/-- What the owner and the other ranks read. -/
theorem VGraph.get_native {v r : Nat} (h1 : 1 ≤ v) (h2 : v ≤ n) (hr : r < nrank) :
    (G.vp.get r).get ((v2n (threads * 16 * nrank) n v : Nat) : Int) = some
      (if ownerOf n nrank nrank (v2n (threads * 16 * nrank) n v) = r then some (P v) else none) := by
  have := VGraph.getVertexproperty_eq c hG h1 h2 hr (hP v h1 h2)
  unfold VGraph.getVertexproperty at this
  rw [VGraph.native_eq c hG h1 h2, Arr.read_some (by rw [hG.vp.size]; exact hr)] at this
  simpa using this

omit hG hP in
/-- A write on a rank that does not own the element changes nothing. -/
theorem DVec.set_other {d : DVec α} (hd : d.WF n nrank nrank) {w r : Nat} (h1 : 1 ≤ w) (h2 : w ≤ n) (hr : r < nrank)
    (ho : ownerOf n nrank nrank w ≠ r) (g : Fresh α) (x : α) : (d.get r).set g w x = some (d.get r) := by
  obtain ⟨p, hp, _⟩ := locate c.rpos h1 h2
  rw [ownerOf_of hp] at ho
  obtain ⟨v', a1, _, a3, _⟩ := SpVec.set_spec (hd.rank r hr) c.rpos g (w := w) x hp
  rw [a1, a3 ho]

theorem VGraph.updateVertex_spec (g : Nat → Fresh V) (dflt : V) (f : V → V) {u : Nat} (h1 : 1 ≤ u) (h2 : u ≤ n) :
    ∃ G', G.updateVertex g dflt f u = some G' ∧ G'.Inv n nrank threads ∧ G'.active = G.active ∧
      G'.Props n nrank threads (fun v => if v = u then f (P u) else P v) := by
  have hw := (c.native h1 h2).2
  unfold VGraph.updateVertex
  rw [VGraph.native_eq c hG h1 h2]
  simp only [Option.bind_eq_bind, Option.bind_some]
  rw [eachRank_congr (f' := fun r x => x.set (g r) ((v2n (threads * 16 * nrank) n u : Nat) : Int) (f (P u))) (by
    intro r hr
    rw [hG.vp.size] at hr
    rw [VGraph.get_native c hG hP h1 h2 hr]
    simp only [Option.bind_some]
    by_cases e : ownerOf n nrank nrank (v2n (threads * 16 * nrank) n u) = r
    · rw [if_pos e]; rfl
    · rw [if_neg e]
      rw [DVec.set_other c hG.vp hw.1 hw.2 hr e, DVec.set_other c hG.vp hw.1 hw.2 hr e])]
  obtain ⟨G', a1, a2, a3, a4⟩ := VGraph.setVertexproperty_spec c hG g h1 h2 (f (P u))
  unfold VGraph.setVertexproperty at a1
  rw [VGraph.native_eq c hG h1 h2] at a1
  simp only [Option.bind_eq_bind, Option.bind_some] at a1
  refine ⟨G', a1, a2, a3, ?_⟩
  intro v v1 v2
  rw [a4 v v1 v2, hP v v1 v2]
  by_cases e : v = u
  · simp only [if_pos e]
  · simp only [if_neg e]

theorem VGraph.updateOwned_spec (gv : Nat → Fresh V) (ga : Nat → Fresh Bool) (f : V → Option (V × Bool)) {u : Nat}
    (h1 : 1 ≤ u) (h2 : u ≤ n) :
    ∃ G', G.updateOwned gv ga f u = some G' ∧ G'.Inv n nrank threads ∧
      G'.Props n nrank threads (fun v => if v = u then ((f (P u)).map Prod.fst).getD (P u) else P v) ∧
      ∀ v, 1 ≤ v → v ≤ n → userSem n nrank threads G'.active v =
        if v = u ∧ (f (P u)).map Prod.snd = some true then some true else userSem n nrank threads G.active v := by
  have hw := (c.native h1 h2).2
  have hown : ∀ r, r < nrank → G.vertexNodeOwner r u =
      some (decide (ownerOf n nrank nrank (v2n (threads * 16 * nrank) n u) = r)) :=
    fun r hr => VGraph.vertexNodeOwner_eq c hG h1 h2 hr
  unfold VGraph.updateOwned
  rw [VGraph.native_eq c hG h1 h2]
  simp only [Option.bind_eq_bind, Option.bind_some]
  cases hf : f (P u) with
  | none =>
    obtain ⟨d1, b1, b2, b3⟩ := eachRank_id (d := G.vp) (f := G.ownedProp gv f u ((v2n (threads * 16 * nrank) n u : Nat) : Int)) (by
      intro r hr
      rw [hG.vp.size] at hr
      unfold VGraph.ownedProp
      rw [hown r hr]
      simp only [Option.bind_some]
      by_cases e : ownerOf n nrank nrank (v2n (threads * 16 * nrank) n u) = r
      · rw [if_pos (by simpa using e), VGraph.get_native c hG hP h1 h2 hr, if_pos e]
        simp only [Option.bind_some, hf]
      · rw [if_neg (by simpa using e)])
    obtain ⟨d2, c1, c2, c3⟩ := eachRank_id (d := G.active) (f := G.ownedActive ga f u ((v2n (threads * 16 * nrank) n u : Nat) : Int)) (by
      intro r hr
      rw [hG.act.size] at hr
      unfold VGraph.ownedActive
      rw [hown r hr]
      simp only [Option.bind_some]
      by_cases e : ownerOf n nrank nrank (v2n (threads * 16 * nrank) n u) = r
      · rw [if_pos (by simpa using e), Arr.read_some (by rw [hG.vp.size]; exact hr)]
        simp only [Option.bind_some]
        rw [VGraph.get_native c hG hP h1 h2 hr, if_pos e]
        simp only [Option.bind_some, hf]
      · rw [if_neg (by simpa using e)])
    rw [b1]
    simp only [Option.bind_some]
    rw [c1]
    refine ⟨_, rfl, ⟨hG.hn, hG.hr, hG.ht, hG.vp.ext b2 b3, ?_, hG.act.ext c2 c3, ?_⟩, ?_, ?_⟩
    · intro p hp
      show (DVec.own nrank d1 p).Ready
      rw [DVec.own_ext hG.vp c.rpos b3]; exact hG.vpReady p hp
    · intro p hp
      show (DVec.own nrank d2 p).Ready
      rw [DVec.own_ext hG.act c.rpos c3]; exact hG.actReady p hp
    · intro v v1 v2
      show DVec.sem n nrank nrank d1 _ = _
      rw [DVec.sem_ext hG.vp c.rpos b3]
      have := hP v v1 v2
      unfold userSem at this
      rw [this]
      simp only [Option.map_none, Option.getD_none]
      by_cases e : v = u
      · rw [if_pos e, e]
      · rw [if_neg e]
    · intro v v1 v2
      show DVec.sem n nrank nrank d2 _ = _
      rw [DVec.sem_ext hG.act c.rpos c3, if_neg (by simp)]
      rfl
  | some y =>
    rw [eachRank_congr (d := G.vp) (f' := fun r x => x.set (gv r) ((v2n (threads * 16 * nrank) n u : Nat) : Int) y.1) (by
      intro r hr
      rw [hG.vp.size] at hr
      unfold VGraph.ownedProp
      rw [hown r hr]
      simp only [Option.bind_some]
      by_cases e : ownerOf n nrank nrank (v2n (threads * 16 * nrank) n u) = r
      · rw [if_pos (by simpa using e), VGraph.get_native c hG hP h1 h2 hr, if_pos e]
        simp only [Option.bind_some, hf]
      · rw [if_neg (by simpa using e), DVec.set_other c hG.vp hw.1 hw.2 hr e])]
    obtain ⟨d1, b1, b2, b3, b4⟩ := DVec.set_spec hG.vp c.rpos c.rpos gv hw.1 hw.2 y.1
    rw [b1]
    simp only [Option.bind_some]
    have hprops : ∀ v, 1 ≤ v → v ≤ n → DVec.sem n nrank nrank d1 (v2n (threads * 16 * nrank) n v) =
        some (if v = u then y.1 else P v) := by
      intro v v1 v2
      have hv := (c.native v1 v2).2
      rw [b4 _ hv.1 hv.2]
      have := hP v v1 v2
      unfold userSem at this
      rw [this]
      by_cases e : v = u
      · subst e; rw [if_pos rfl, if_pos rfl]
      · rw [if_neg (fun h => e (v2n_inj c.nppos v1 h1 h)), if_neg e]
    cases hy : y.2 with
    | true =>
      rw [eachRank_congr (d := G.active) (f' := fun r x => x.set (ga r) ((v2n (threads * 16 * nrank) n u : Nat) : Int) true) (by
        intro r hr
        rw [hG.act.size] at hr
        unfold VGraph.ownedActive
        rw [hown r hr]
        simp only [Option.bind_some]
        by_cases e : ownerOf n nrank nrank (v2n (threads * 16 * nrank) n u) = r
        · rw [if_pos (by simpa using e), Arr.read_some (by rw [hG.vp.size]; exact hr)]
          simp only [Option.bind_some]
          rw [VGraph.get_native c hG hP h1 h2 hr, if_pos e]
          simp only [Option.bind_some, hf, hy, if_true]
        · rw [if_neg (by simpa using e), DVec.set_other c hG.act hw.1 hw.2 hr e])]
      obtain ⟨d2, c1, c2, c3, c4⟩ := DVec.set_spec hG.act c.rpos c.rpos ga hw.1 hw.2 true
      rw [c1]
      refine ⟨_, rfl, ⟨hG.hn, hG.hr, hG.ht, b2, b3 hG.vpReady, c2, c3 hG.actReady⟩, hprops, ?_⟩
      intro v v1 v2
      have hv := (c.native v1 v2).2
      show DVec.sem n nrank nrank d2 _ = _
      rw [c4 _ hv.1 hv.2]
      simp only [Option.map_some, hy, and_true]
      by_cases e : v = u
      · subst e; rw [if_pos rfl, if_pos rfl]
      · rw [if_neg (fun h => e (v2n_inj c.nppos v1 h1 h)), if_neg e]; rfl
    | false =>
      obtain ⟨d2, c1, c2, c3⟩ := eachRank_id (d := G.active) (f := G.ownedActive ga f u ((v2n (threads * 16 * nrank) n u : Nat) : Int)) (by
        intro r hr
        rw [hG.act.size] at hr
        unfold VGraph.ownedActive
        rw [hown r hr]
        simp only [Option.bind_some]
        by_cases e : ownerOf n nrank nrank (v2n (threads * 16 * nrank) n u) = r
        · rw [if_pos (by simpa using e), Arr.read_some (by rw [hG.vp.size]; exact hr)]
          simp only [Option.bind_some]
          rw [VGraph.get_native c hG hP h1 h2 hr, if_pos e]
          simp only [Option.bind_some, hf, hy, Bool.false_eq_true, if_false]
        · rw [if_neg (by simpa using e)])
      rw [c1]
      refine ⟨_, rfl, ⟨hG.hn, hG.hr, hG.ht, b2, b3 hG.vpReady, hG.act.ext c2 c3, ?_⟩, hprops, ?_⟩
      · intro p hp
        show (DVec.own nrank d2 p).Ready
        rw [DVec.own_ext hG.act c.rpos c3]; exact hG.actReady p hp
      · intro v v1 v2
        show DVec.sem n nrank nrank d2 _ = _
        rw [DVec.sem_ext hG.act c.rpos c3, if_neg (by simp [hy])]
        rfl

end

/-- The graph holds the edges `es` and the properties `P`; nothing is said about the active set. -/
def Graph.Loaded (G : Graph V E) (n nrank threads : Nat) (es : List (Edge E)) (P : Nat → V) : Prop :=
  ∃ TA TT PA PT, (∀ e ∈ es, e.Valid n) ∧
    G.Holds n nrank threads TA TT PA PT (es.map (nativeEdge (threads * 16 * nrank) n)) ∧
    G.toVGraph.Props n nrank threads P

theorem Graph.Represents.loaded {G : Graph V E} {n nrank threads : Nat} {es : List (Edge E)} {P : Nat → V}
    {A : Nat → Bool} (h : G.Represents n nrank threads es P A) : G.Loaded n nrank threads es P := by
  obtain ⟨TA, TT, PA, PT, h⟩ := h
  exact ⟨TA, TT, PA, PT, h.valid, h.holds, h.props⟩

theorem Graph.Loaded.inv {G : Graph V E} {n nrank threads : Nat} {es : List (Edge E)} {P : Nat → V}
    (h : G.Loaded n nrank threads es P) : G.toVGraph.Inv n nrank threads := by
  obtain ⟨TA, TT, PA, PT, _, h, _⟩ := h
  exact h.inv

theorem Graph.Loaded.props {G : Graph V E} {n nrank threads : Nat} {es : List (Edge E)} {P : Nat → V}
    (h : G.Loaded n nrank threads es P) : G.toVGraph.Props n nrank threads P := by
  obtain ⟨TA, TT, PA, PT, _, _, h⟩ := h
  exact h

theorem Graph.Loaded.represents {G : Graph V E} {n nrank threads : Nat} {es : List (Edge E)} {P : Nat → V}
    {A : Nat → Bool} (h : G.Loaded n nrank threads es P) (hA : G.toVGraph.Acts n nrank threads A) :
    G.Represents n nrank threads es P A := by
  obtain ⟨TA, TT, PA, PT, h1, h2, h3⟩ := h
  exact ⟨TA, TT, PA, PT, h1, h2, h3, hA⟩

/-- Replacing the vertex part of a graph. -/
theorem Graph.Loaded.onVertices {G : Graph V E} {n nrank threads : Nat} {es : List (Edge E)} {P P' : Nat → V}
    (h : G.Loaded n nrank threads es P) {vg : VGraph V} (hi : vg.Inv n nrank threads)
    (hP : vg.Props n nrank threads P') : ({ G with toVGraph := vg } : Graph V E).Loaded n nrank threads es P' := by
  obtain ⟨TA, TT, PA, PT, h1, h2, _⟩ := h
  exact ⟨TA, TT, PA, PT, h1, ⟨hi, h2.A, h2.AT⟩, hP⟩

theorem Graph.Represents.onVertices {G : Graph V E} {n nrank threads : Nat} {es : List (Edge E)} {P P' : Nat → V}
    {A A' : Nat → Bool} (h : G.Represents n nrank threads es P A) {vg : VGraph V} (hi : vg.Inv n nrank threads)
    (hP : vg.Props n nrank threads P') (hA : vg.Acts n nrank threads A') :
    ({ G with toVGraph := vg } : Graph V E).Represents n nrank threads es P' A' :=
  (h.loaded.onVertices hi hP).represents hA

/-- Loading. -/
theorem Graph.load_loaded {n nrank threads : Nat} (c : Cfg n nrank threads) (env : LoadEnv V E)
    (hsA : env.sA.OK) (hsT : env.sAT.OK) {d : V} (hd : env.d = fun _ => d) {blobs : List (List (Edge E))}
    (hb : blobs.length = nrank) (hin : ∀ es ∈ blobs, ∀ e ∈ es, e.Valid n) :
    ∃ out G, Graph.readEdgelist env threads nrank n n blobs = some (out, G) ∧
      G.Loaded n nrank threads blobs.flatten (fun _ => d) := by
  have hv : ∀ e ∈ blobs.flatten, e.Valid n := by
    intro e he
    rw [List.mem_flatten] at he
    obtain ⟨es, h1, h2⟩ := he
    exact hin es h1 e h2
  obtain ⟨out, G, TA, TT, PA, PT, h1, h2, _, _, _, _, h3⟩ := Graph.readEdgelist_spec c env hsA hsT hb hv
  obtain ⟨G0, a1, a2, a3, _⟩ := VGraph.create_spec c env.gv env.ga env.d
  rw [a1] at h3
  injection h3 with h3
  subst h3
  refine ⟨out, G, h1, TA, TT, PA, PT, hv, h2, ?_⟩
  intro v v1 v2
  rw [a3 v v1 v2, hd]

/-- Calls on the vertices after which the active set is determined. -/
theorem Graph.Loaded.ops {n nrank threads : Nat} (c : Cfg n nrank threads) {G : Graph V E} {es : List (Edge E)}
    {P : Nat → V} (h : G.Loaded n nrank threads es P)
    (gv : Nat → Nat → Nat → Fresh V) (ga : Nat → Nat → Nat → Fresh Bool) {ops : List (VOp V)}
    (hops : ∀ op ∈ ops, op.Valid n) (hfix : ∃ op ∈ ops, op.FixesActivity) (A : Nat → Bool) :
    ∃ G' : Graph V E, G.onVertices (fun vg => vg.runOps gv ga 0 ops) = some G' ∧
      G'.Represents n nrank threads es (VSpec.run ⟨P, A⟩ ops).prop (VSpec.run ⟨P, A⟩ ops).active := by
  obtain ⟨vg, b1, b2, b3, b4⟩ := VGraph.runOps_spec c gv ga ops 0 G.toVGraph ⟨P, A⟩ h.inv hops h.props
  refine ⟨_, by show Option.map _ (VGraph.runOps gv ga 0 ops G.toVGraph) = _; rw [b1]; rfl,
    (h.onVertices b2 b3).represents (b4 (.inl hfix))⟩

/-- Only the values at existing vertices matter. -/
theorem Graph.Represents.congr {G : Graph V E} {n nrank threads : Nat} {es : List (Edge E)} {P P' : Nat → V}
    {A A' : Nat → Bool} (h : G.Represents n nrank threads es P A) (hP : ∀ v, 1 ≤ v → v ≤ n → P v = P' v)
    (hA : ∀ v, 1 ≤ v → v ≤ n → A v = A' v) : G.Represents n nrank threads es P' A' := by
  refine h.onVertices (vg := G.toVGraph) h.inv ?_ ?_
  · intro v v1 v2; rw [← hP v v1 v2]; exact h.props v v1 v2
  · intro v v1 v2; rw [← hA v v1 v2]; exact h.acts v v1 v2

/-- Any sequence of calls on the vertices. -/
theorem Graph.Represents.ops {n nrank threads : Nat} (c : Cfg n nrank threads) {G : Graph V E} {es : List (Edge E)}
    {P : Nat → V} {A : Nat → Bool} (h : G.Represents n nrank threads es P A)
    (gv : Nat → Nat → Nat → Fresh V) (ga : Nat → Nat → Nat → Fresh Bool) {ops : List (VOp V)}
    (hops : ∀ op ∈ ops, op.Valid n) :
    ∃ G' : Graph V E, G.onVertices (fun vg => vg.runOps gv ga 0 ops) = some G' ∧
      G'.Represents n nrank threads es (VSpec.run ⟨P, A⟩ ops).prop (VSpec.run ⟨P, A⟩ ops).active := by
  obtain ⟨vg, b1, b2, b3, b4⟩ := VGraph.runOps_spec c gv ga ops 0 G.toVGraph ⟨P, A⟩ h.inv hops h.props
  refine ⟨_, by show Option.map _ (VGraph.runOps gv ga 0 ops G.toVGraph) = _; rw [b1]; rfl, h.onVertices b2 b3 (b4 (.inr h.acts))⟩

/-- A loop over all vertices that updates each of them. -/
theorem Graph.Loaded.updateAll {n nrank threads : Nat} (c : Cfg n nrank threads) {G : Graph V E} {es : List (Edge E)}
    {P : Nat → V} (h : G.Loaded n nrank threads es P)
    (g : Nat → Nat → Fresh V) (dflt : V) (f : Nat → V → V) :
    ∃ G' : Graph V E, G.forVertices n (fun i vg => vg.updateVertex (g i) dflt (f i) (i : Int)) = some G' ∧
      G'.Loaded n nrank threads es (fun v => f v (P v)) ∧ G'.active = G.active := by
  obtain ⟨vg, h1, h2, h3, h4⟩ := forLoop_inv (lo := 1) (hi := n + 1) (s := G.toVGraph)
    (body := fun i vg => vg.updateVertex (g i) dflt (f i) (i : Int))
    (fun k vg => vg.Inv n nrank threads ∧ vg.active = G.active ∧
      vg.Props n nrank threads (fun v => if v < k then f v (P v) else P v))
    (by omega) ⟨h.inv, rfl, by
      intro v v1 v2
      rw [h.props v v1 v2]; beta_reduce; rw [if_neg (by omega)]⟩ (by
      intro k vg k1 k2 ⟨e1, e2, e3⟩
      obtain ⟨vg', f1, f2, f3, f4⟩ := VGraph.updateVertex_spec c e1 e3 (g k) dflt (f k) k1 (by omega)
      refine ⟨vg', f1, f2, by rw [f3, e2], ?_⟩
      intro v v1 v2
      rw [f4 v v1 v2]; beta_reduce
      by_cases e : v = k
      · subst e; rw [if_pos rfl, if_neg (by omega), if_pos (by omega)]
      · rw [if_neg e]
        have : v < k + 1 ↔ v < k := by omega
        simp only [this])
  refine ⟨_, by unfold Graph.forVertices Graph.onVertices; exact congrArg (Option.map _) h1, ?_⟩
  refine ⟨h.onVertices h2 ?_, h3⟩
  intro v v1 v2
  rw [h4 v v1 v2]; beta_reduce; rw [if_pos (by omega)]

/-- One vertex. -/
theorem Graph.Loaded.update {n nrank threads : Nat} (c : Cfg n nrank threads) {G : Graph V E} {es : List (Edge E)}
    {P : Nat → V} (h : G.Loaded n nrank threads es P) (g : Nat → Fresh V) (dflt : V) (f : V → V) {u : Nat}
    (h1 : 1 ≤ u) (h2 : u ≤ n) :
    ∃ G' : Graph V E, G.onVertices (VGraph.updateVertex g dflt f (u : Int)) = some G' ∧
      G'.Loaded n nrank threads es (fun v => if v = u then f (P u) else P v) ∧ G'.active = G.active := by
  obtain ⟨vg, a1, a2, a3, a4⟩ := VGraph.updateVertex_spec c h.inv h.props g dflt f h1 h2
  refine ⟨_, ?_, h.onVertices a2 a4, a3⟩
  unfold Graph.onVertices
  rw [a1]; rfl

/-- The same for loops that update owned vertices only, on a graph about whose active vertices nothing is known. -/
theorem Graph.Loaded.updateOwnedAll {n nrank threads : Nat} (c : Cfg n nrank threads) {G : Graph V E}
    {es : List (Edge E)} {P : Nat → V} (h : G.Loaded n nrank threads es P)
    (gv : Nat → Nat → Fresh V) (ga : Nat → Nat → Fresh Bool) (f : Nat → V → Option (V × Bool)) :
    ∃ G' : Graph V E, G.forVertices n (fun i vg => vg.updateOwned (gv i) (ga i) (f i) (i : Int)) = some G' ∧
      G'.Loaded n nrank threads es (fun v => ((f v (P v)).map Prod.fst).getD (P v)) := by
  obtain ⟨vg, h1, h2, h4⟩ := forLoop_inv (lo := 1) (hi := n + 1) (s := G.toVGraph)
    (body := fun i vg => vg.updateOwned (gv i) (ga i) (f i) (i : Int))
    (fun k vg => vg.Inv n nrank threads ∧
      vg.Props n nrank threads (fun v => if v < k then ((f v (P v)).map Prod.fst).getD (P v) else P v))
    (by omega) ⟨h.inv, by
      intro v v1 v2
      rw [h.props v v1 v2]; beta_reduce
      rw [if_neg (by omega)]⟩
    (by
      rintro k vg k1 k2 ⟨i1, i3⟩
      obtain ⟨G', a1, a2, a3, a4⟩ := VGraph.updateOwned_spec c i1 i3 (gv k) (ga k) (f k) (u := k) k1 (by omega)
      refine ⟨G', a1, a2, ?_⟩
      intro v v1 v2
      rw [a3 v v1 v2]; beta_reduce
      by_cases e : v = k
      · subst e
        rw [if_pos rfl, if_neg (by omega), if_pos (by omega)]
      · rw [if_neg e]
        by_cases e2 : v < k
        · rw [if_pos e2, if_pos (by omega)]
        · rw [if_neg e2, if_neg (by omega)])
  refine ⟨{ G with toVGraph := vg }, by unfold Graph.forVertices Graph.onVertices; exact congrArg (Option.map _) h1, h.onVertices h2 ?_⟩
  intro v v1 v2
  rw [h4 v v1 v2]; beta_reduce
  rw [if_pos (by omega)]

/-- The same for loops that update owned vertices only and may activate them. -/
theorem Graph.Represents.updateOwnedAll {n nrank threads : Nat} (c : Cfg n nrank threads) {G : Graph V E}
    {es : List (Edge E)} {P : Nat → V} {A : Nat → Bool} (h : G.Represents n nrank threads es P A)
    (gv : Nat → Nat → Fresh V) (ga : Nat → Nat → Fresh Bool) (f : Nat → V → Option (V × Bool)) :
    ∃ G' : Graph V E, G.forVertices n (fun i vg => vg.updateOwned (gv i) (ga i) (f i) (i : Int)) = some G' ∧
      G'.Represents n nrank threads es (fun v => ((f v (P v)).map Prod.fst).getD (P v))
        (fun v => decide ((f v (P v)).map Prod.snd = some true) || A v) := by
  obtain ⟨vg, h1, h2, h3, h4⟩ := forLoop_inv (lo := 1) (hi := n + 1) (s := G.toVGraph)
    (body := fun i vg => vg.updateOwned (gv i) (ga i) (f i) (i : Int))
    (fun k vg => vg.Inv n nrank threads ∧
      vg.Acts n nrank threads (fun v => (decide (v < k) && decide ((f v (P v)).map Prod.snd = some true)) || A v) ∧
      vg.Props n nrank threads (fun v => if v < k then ((f v (P v)).map Prod.fst).getD (P v) else P v))
    (by omega) ⟨h.inv, by
      intro v v1 v2
      rw [h.acts v v1 v2]; beta_reduce
      have : decide (v < 1) = false := by simp; omega
      rw [this]; simp, by
      intro v v1 v2
      rw [h.props v v1 v2]; beta_reduce; rw [if_neg (by omega)]⟩ (by
      intro k vg k1 k2 ⟨e1, e2, e3⟩
      obtain ⟨vg', f1, f2, f3, f4⟩ := VGraph.updateOwned_spec c e1 e3 (gv k) (ga k) (f k) k1 (by omega)
      simp only [if_neg (Nat.lt_irrefl k)] at f3 f4
      refine ⟨vg', f1, f2, ?_, ?_⟩
      · intro v v1 v2
        rw [f4 v v1 v2, e2 v v1 v2]; beta_reduce
        by_cases e : v = k
        · subst e
          have h1 : decide (v < v) = false := by simp
          have h2 : decide (v < v + 1) = true := by simp
          rw [h1, h2]
          simp only [true_and, Bool.false_and, Bool.false_or, Bool.true_and]
          by_cases hx : (f v (P v)).map Prod.snd = some true
          · rw [if_pos hx]; simp [hx]
          · rw [if_neg hx]; simp [hx]
        · rw [if_neg (by simp [e])]
          have : v < k + 1 ↔ v < k := by omega
          simp only [this]
      · intro v v1 v2
        rw [f3 v v1 v2]; beta_reduce
        by_cases e : v = k
        · subst e; rw [if_pos rfl, if_pos (by omega)]
        · rw [if_neg e]
          have : v < k + 1 ↔ v < k := by omega
          simp only [this])
  refine ⟨_, by unfold Graph.forVertices Graph.onVertices; exact congrArg (Option.map _) h1, ?_⟩
  refine h.onVertices h2 ?_ ?_
  · intro v v1 v2
    rw [h4 v v1 v2]; beta_reduce; rw [if_pos (by omega)]
  · intro v v1 v2
    rw [h3 v v1 v2]; beta_reduce
    have : decide (v < n + 1) = true := by simp; omega
    rw [this, Bool.true_and]

/-! ### Single calls -/

section
variable {n nrank threads : Nat} (c : Cfg n nrank threads) {G : Graph V E} {es : List (Edge E)} {P : Nat → V}
include c

theorem Graph.Loaded.setAllInactive (h : G.Loaded n nrank threads es P) (g : Nat → Nat → Fresh Bool) :
    ∃ G' : Graph V E, G.onVertices (VGraph.setAllInactive g) = some G' ∧
      G'.Represents n nrank threads es P (fun _ => false) := by
  obtain ⟨vg, a1, a2, a3, a4⟩ := VGraph.setAllInactive_spec c h.inv g
  refine ⟨{ G with toVGraph := vg }, by unfold Graph.onVertices; rw [a1]; rfl, (h.onVertices a2 ?_).represents ?_⟩
  · intro v v1 v2; rw [a3]; exact h.props v v1 v2
  · intro v v1 v2; exact a4 v v1 v2

theorem Graph.Loaded.setAllActive (h : G.Loaded n nrank threads es P) (g : Nat → Nat → Fresh Bool) :
    ∃ G' : Graph V E, G.onVertices (VGraph.setAllActive g) = some G' ∧
      G'.Represents n nrank threads es P (fun _ => true) := by
  obtain ⟨vg, a1, a2, a3, a4⟩ := VGraph.setAllActive_spec c h.inv g
  refine ⟨{ G with toVGraph := vg }, by unfold Graph.onVertices; rw [a1]; rfl, (h.onVertices a2 ?_).represents ?_⟩
  · intro v v1 v2; rw [a3]; exact h.props v v1 v2
  · intro v v1 v2; exact a4 v v1 v2

theorem Graph.Represents.setActive {A : Nat → Bool} (h : G.Represents n nrank threads es P A) (g : Nat → Fresh Bool)
    {u : Nat} (h1 : 1 ≤ u) (h2 : u ≤ n) :
    ∃ G' : Graph V E, G.onVertices (VGraph.setActive g (u : Int)) = some G' ∧
      G'.Represents n nrank threads es P (fun v => if v = u then true else A v) := by
  obtain ⟨vg, a1, a2, a3, a4⟩ := VGraph.setActive_spec c h.inv g h1 h2
  refine ⟨{ G with toVGraph := vg }, by unfold Graph.onVertices; rw [a1]; rfl, h.onVertices a2 ?_ ?_⟩
  · intro v v1 v2; rw [a3]; exact h.props v v1 v2
  · intro v v1 v2
    rw [a4 v v1 v2, h.acts v v1 v2]
    by_cases e : v = u
    · simp only [if_pos e]; rfl
    · simp only [if_neg e]

theorem Graph.Loaded.setAllVertexproperty (h : G.Loaded n nrank threads es P) (g : Nat → Nat → Fresh V) (x : V) :
    ∃ G' : Graph V E, G.onVertices (VGraph.setAllVertexproperty g x) = some G' ∧
      G'.Loaded n nrank threads es (fun _ => x) ∧ G'.active = G.active := by
  obtain ⟨vg, a1, a2, a3, a4⟩ := VGraph.setAllVertexproperty_spec c h.inv g x
  exact ⟨{ G with toVGraph := vg }, by unfold Graph.onVertices; rw [a1]; rfl, h.onVertices a2 a4, a3⟩

theorem Graph.Loaded.setVertexproperty (h : G.Loaded n nrank threads es P) (g : Nat → Fresh V) {u : Nat} (h1 : 1 ≤ u)
    (h2 : u ≤ n) (x : V) :
    ∃ G' : Graph V E, G.onVertices (VGraph.setVertexproperty g (u : Int) x) = some G' ∧
      G'.Loaded n nrank threads es (fun v => if v = u then x else P v) ∧ G'.active = G.active := by
  obtain ⟨vg, a1, a2, a3, a4⟩ := VGraph.setVertexproperty_spec c h.inv g h1 h2 x
  refine ⟨{ G with toVGraph := vg }, by unfold Graph.onVertices; rw [a1]; rfl, h.onVertices a2 ?_, a3⟩
  intro v v1 v2
  rw [a4 v v1 v2, h.props v v1 v2]
  by_cases e : v = u
  · simp only [if_pos e]
  · simp only [if_neg e]

theorem Graph.Loaded.applyAll (h : G.Loaded n nrank threads es P) (g : Nat → Nat → Fresh V) (f : V → V → V) :
    ∃ G' : Graph V E, G.onVertices (VGraph.applyToAllVertices g f) = some G' ∧
      G'.Loaded n nrank threads es (fun v => f (P v) (P v)) ∧ G'.active = G.active := by
  obtain ⟨vg, a1, a2, a3, a4⟩ := VGraph.applyToAllVertices_spec c h.inv g f
  refine ⟨{ G with toVGraph := vg }, by unfold Graph.onVertices; rw [a1]; rfl, h.onVertices a2 ?_, a3⟩
  intro v v1 v2
  rw [a4 v v1 v2, h.props v v1 v2]; rfl

end

/-- Reapplying what is known about the active set after the properties changed. -/
theorem Graph.Loaded.keepActive {G G' : Graph V E} {n nrank threads : Nat} {es es' : List (Edge E)} {P P' : Nat → V}
    {A : Nat → Bool} (h : G'.Loaded n nrank threads es' P') (hG : G.Represents n nrank threads es P A)
    (ha : G'.active = G.active) : G'.Represents n nrank threads es' P' A :=
  h.represents (by intro v v1 v2; rw [ha]; exact hG.acts v v1 v2)

end GraphMat

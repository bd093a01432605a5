import Verif.Lemmas.VecList
import Verif.Model.History

/-! Invariant of the vertex part of a graph and its abstraction to user ids. -/
namespace GraphMat

variable {α β V : Type}

/-- The run-time configuration fits into C ints. -/
structure Cfg (n nrank threads : Nat) : Prop where
  rpos : 0 < nrank
  tpos : 0 < threads
  np : threads * 16 * nrank ≤ 2147483647
  n : n ≤ 2147483647

theorem Cfg.nppos {n nrank threads : Nat} (c : Cfg n nrank threads) : 0 < threads * 16 * nrank :=
  Nat.mul_pos (Nat.mul_pos c.tpos (by omega)) c.rpos

/-- What a distributed vector holds for user id `v`. -/
def userSem (n nrank threads : Nat) (d : DVec α) (v : Nat) : Option α :=
  d.sem n nrank nrank (v2n (threads * 16 * nrank) n v)

theorem Cfg.native {n nrank threads : Nat} (c : Cfg n nrank threads) {v : Nat} (h1 : 1 ≤ v)
    (h2 : v ≤ n) :
    vertexToNative threads nrank n v = some ((v2n (threads * 16 * nrank) n v : Nat) : Int) ∧
      1 ≤ v2n (threads * 16 * nrank) n v ∧ v2n (threads * 16 * nrank) n v ≤ n :=
  ⟨vertexToNative_eq c.tpos c.rpos c.np c.n h1 h2, v2n_range c.nppos h1 h2⟩

theorem v2n_inj {np n u v : Nat} (hnp : 0 < np) (hu : 1 ≤ u) (hv : 1 ≤ v)
    (h : v2n np n u = v2n np n v) : u = v := by
  rw [← n2v_v2n (n := n) hnp hu, h, n2v_v2n hnp hv]

/-- Invariant of the vertex part of a graph. -/
structure VGraph.Inv (n nrank threads : Nat) (G : VGraph V) : Prop where
  hn : G.n = n
  hr : G.nrank = nrank
  ht : G.threads = threads
  vp : G.vp.WF n nrank nrank
  vpReady : DVec.Ready nrank nrank G.vp
  act : DVec.WF n nrank nrank G.active
  actReady : DVec.Ready nrank nrank G.active

/-- The graph's properties are the map `P`. -/
def VGraph.Props (n nrank threads : Nat) (P : Nat → V) (G : VGraph V) : Prop :=
  ∀ v, 1 ≤ v → v ≤ n → userSem n nrank threads G.vp v = some (P v)

/-- The graph's active set is `A`, and inactive vertices have no presence bit. -/
def VGraph.Acts (n nrank threads : Nat) (A : Nat → Bool) (G : VGraph V) : Prop :=
  ∀ v, 1 ≤ v → v ≤ n → userSem n nrank threads G.active v = if A v then some true else none

theorem userSem_setAll {n nrank threads : Nat} (c : Cfg n nrank threads) {d : DVec α}
    {x : α}
    (h : ∀ p, p < nrank → ∀ i, (d.own nrank p).view i =
        if i < bnd n nrank (p + 1) - bnd n nrank p then some x else none)
    {v : Nat} (h1 : 1 ≤ v) (h2 : v ≤ n) : userSem n nrank threads d v = some x := by
  have := c.native h1 h2
  obtain ⟨p, _, h⟩ := DVec.sem_const (x := fun _ => x) c.rpos h this.2.1 this.2.2
  exact h

theorem userSem_empty {n nrank threads : Nat} (c : Cfg n nrank threads) {d : DVec α}
    (h : ∀ p, p < nrank → ∀ i, (d.own nrank p).view i = none)
    {v : Nat} (h1 : 1 ≤ v) (h2 : v ≤ n) : userSem n nrank threads d v = none := by
  have := c.native h1 h2
  obtain ⟨p, hp, hlt, _⟩ := locate c.rpos this.2.1 this.2.2
  unfold userSem
  rw [DVec.sem_of hp, h p hlt]

theorem VGraph.create_spec {n nrank threads : Nat} (c : Cfg n nrank threads)
    (gv : Nat → Nat → Fresh V) (ga : Nat → Nat → Fresh Bool) (d : Nat → V) :
    ∃ G, VGraph.create n nrank threads gv ga d = some G ∧ G.Inv n nrank threads ∧
      (∀ v, 1 ≤ v → v ≤ n → userSem n nrank threads G.vp v =
        some (d (ownerOf n nrank nrank (v2n (threads * 16 * nrank) n v)))) ∧
      (∀ v, 1 ≤ v → v ≤ n → userSem n nrank threads G.active v = some false) := by
  unfold VGraph.create
  obtain ⟨v0, a1, a2, _⟩ := DVec.new_spec (α := V) n nrank nrank c.rpos
  obtain ⟨v1, b1, b2, b3, b4⟩ := DVec.setAll_spec a2 c.rpos gv d
  obtain ⟨w0, c1, c2, _⟩ := DVec.new_spec (α := Bool) n nrank nrank c.rpos
  obtain ⟨w1, d1, d2, d3, d4⟩ := DVec.setAll_spec c2 c.rpos ga (fun _ => false)
  rw [a1, c1]
  simp only [Option.bind_eq_bind, Option.bind_some]
  rw [b1, d1]
  simp only [Option.bind_some]
  refine ⟨_, rfl, ⟨rfl, rfl, rfl, b2, b3, d2, d3⟩, ?_, ?_⟩
  · intro v h1 h2
    have := c.native h1 h2
    obtain ⟨p, hp, h⟩ := DVec.sem_const c.rpos b4 this.2.1 this.2.2
    rw [ownerOf_of hp]; exact h
  · intro v h1 h2
    exact userSem_setAll c d4 h1 h2

section ops
variable {n nrank threads : Nat} (c : Cfg n nrank threads) {G : VGraph V}
  (hG : G.Inv n nrank threads)
include c hG

theorem VGraph.native_eq {v : Nat} (h1 : 1 ≤ v) (h2 : v ≤ n) :
    G.native v = some ((v2n (threads * 16 * nrank) n v : Nat) : Int) := by
  unfold VGraph.native
  rw [hG.hn, hG.hr, hG.ht]
  exact (c.native h1 h2).1

theorem VGraph.setAllVertexproperty_spec (g : Nat → Nat → Fresh V) (x : V) :
    ∃ G', G.setAllVertexproperty g x = some G' ∧ G'.Inv n nrank threads ∧
      G'.active = G.active ∧
      (∀ v, 1 ≤ v → v ≤ n → userSem n nrank threads G'.vp v = some x) := by
  unfold VGraph.setAllVertexproperty
  obtain ⟨d, b1, b2, b3, b4⟩ := DVec.setAll_spec hG.vp c.rpos g (fun _ => x)
  rw [b1]
  exact ⟨_, rfl, ⟨hG.hn, hG.hr, hG.ht, b2, b3, hG.act, hG.actReady⟩, rfl,
    fun v h1 h2 => userSem_setAll c b4 h1 h2⟩

theorem VGraph.setVertexproperty_spec (g : Nat → Fresh V) {u : Nat} (hu1 : 1 ≤ u) (hu2 : u ≤ n)
    (x : V) :
    ∃ G', G.setVertexproperty g u x = some G' ∧ G'.Inv n nrank threads ∧
      G'.active = G.active ∧
      (∀ v, 1 ≤ v → v ≤ n → userSem n nrank threads G'.vp v =
        if v = u then some x else userSem n nrank threads G.vp v) := by
  unfold VGraph.setVertexproperty
  rw [VGraph.native_eq c hG hu1 hu2]
  simp only [Option.bind_eq_bind, Option.bind_some]
  have hw := (c.native hu1 hu2).2
  obtain ⟨d, b1, b2, b3, b4⟩ := DVec.set_spec hG.vp c.rpos c.rpos g hw.1 hw.2 x
  rw [b1]
  refine ⟨_, rfl, ⟨hG.hn, hG.hr, hG.ht, b2, b3 hG.vpReady, hG.act, hG.actReady⟩, rfl, ?_⟩
  intro v h1 h2
  have hw' := (c.native h1 h2).2
  show DVec.sem _ _ _ d _ = _
  rw [b4 _ hw'.1 hw'.2]
  have : v2n (threads * 16 * nrank) n v = v2n (threads * 16 * nrank) n u ↔ v = u :=
    ⟨v2n_inj c.nppos h1 hu1, fun e => by rw [e]⟩
  simp only [this]
  rfl

theorem VGraph.applyToAllVertices_spec (g : Nat → Nat → Fresh V) (f : V → V → V) :
    ∃ G', G.applyToAllVertices g f = some G' ∧ G'.Inv n nrank threads ∧
      G'.active = G.active ∧
      (∀ v, 1 ≤ v → v ≤ n → userSem n nrank threads G'.vp v =
        (userSem n nrank threads G.vp v).map (fun x => f x x)) := by
  unfold VGraph.applyToAllVertices
  obtain ⟨d, b1, b2, b3, b4⟩ := DVec.applySelf_spec hG.vp c.rpos g f
  rw [b1]
  exact ⟨_, rfl, ⟨hG.hn, hG.hr, hG.ht, b2, b3, hG.act, hG.actReady⟩, rfl,
    fun v _ _ => b4 _⟩

theorem VGraph.setAllActive_spec (g : Nat → Nat → Fresh Bool) :
    ∃ G', G.setAllActive g = some G' ∧ G'.Inv n nrank threads ∧ G'.vp = G.vp ∧
      (∀ v, 1 ≤ v → v ≤ n → userSem n nrank threads G'.active v = some true) := by
  unfold VGraph.setAllActive
  obtain ⟨d, b1, b2, b3, b4⟩ := DVec.setAll_spec hG.act c.rpos g (fun _ => true)
  rw [b1]
  exact ⟨_, rfl, ⟨hG.hn, hG.hr, hG.ht, hG.vp, hG.vpReady, b2, b3⟩, rfl,
    fun v h1 h2 => userSem_setAll c b4 h1 h2⟩

theorem VGraph.setAllInactive_spec (g : Nat → Nat → Fresh Bool) :
    ∃ G', G.setAllInactive g = some G' ∧ G'.Inv n nrank threads ∧ G'.vp = G.vp ∧
      (∀ v, 1 ≤ v → v ≤ n → userSem n nrank threads G'.active v = none) := by
  unfold VGraph.setAllInactive
  obtain ⟨d, b1, b2, b3, b4⟩ := DVec.setAllInactive_spec hG.act c.rpos g
  rw [b1]
  exact ⟨_, rfl, ⟨hG.hn, hG.hr, hG.ht, hG.vp, hG.vpReady, b2, b3⟩, rfl,
    fun v h1 h2 => userSem_empty c b4 h1 h2⟩

theorem VGraph.setActive_spec (g : Nat → Fresh Bool) {u : Nat} (hu1 : 1 ≤ u) (hu2 : u ≤ n) :
    ∃ G', G.setActive g u = some G' ∧ G'.Inv n nrank threads ∧ G'.vp = G.vp ∧
      (∀ v, 1 ≤ v → v ≤ n → userSem n nrank threads G'.active v =
        if v = u then some true else userSem n nrank threads G.active v) := by
  unfold VGraph.setActive
  rw [VGraph.native_eq c hG hu1 hu2]
  simp only [Option.bind_eq_bind, Option.bind_some]
  have hw := (c.native hu1 hu2).2
  obtain ⟨d, b1, b2, b3, b4⟩ := DVec.set_spec hG.act c.rpos c.rpos g hw.1 hw.2 true
  rw [b1]
  refine ⟨_, rfl, ⟨hG.hn, hG.hr, hG.ht, hG.vp, hG.vpReady, b2, b3 hG.actReady⟩, rfl, ?_⟩
  intro v h1 h2
  have hw' := (c.native h1 h2).2
  show DVec.sem _ _ _ d _ = _
  rw [b4 _ hw'.1 hw'.2]
  have : v2n (threads * 16 * nrank) n v = v2n (threads * 16 * nrank) n u ↔ v = u :=
    ⟨v2n_inj c.nppos h1 hu1, fun e => by rw [e]⟩
  simp only [this]
  rfl

theorem VGraph.setInactive_spec (g : Nat → Fresh Bool) {u : Nat} (hu1 : 1 ≤ u) (hu2 : u ≤ n) :
    ∃ G', G.setInactive g u = some G' ∧ G'.Inv n nrank threads ∧ G'.vp = G.vp ∧
      (∀ v, 1 ≤ v → v ≤ n → userSem n nrank threads G'.active v =
        if v = u then none else userSem n nrank threads G.active v) := by
  unfold VGraph.setInactive
  rw [VGraph.native_eq c hG hu1 hu2]
  simp only [Option.bind_eq_bind, Option.bind_some]
  have hw := (c.native hu1 hu2).2
  obtain ⟨d, b1, b2, b3, b4⟩ := DVec.unset_spec hG.act c.rpos c.rpos g hw.1 hw.2
  rw [b1]
  refine ⟨_, rfl, ⟨hG.hn, hG.hr, hG.ht, hG.vp, hG.vpReady, b2, b3 hG.actReady⟩, rfl, ?_⟩
  intro v h1 h2
  have hw' := (c.native h1 h2).2
  show DVec.sem _ _ _ d _ = _
  rw [b4 _ hw'.1 hw'.2]
  have : v2n (threads * 16 * nrank) n v = v2n (threads * 16 * nrank) n u ↔ v = u :=
    ⟨v2n_inj c.nppos h1 hu1, fun e => by rw [e]⟩
  simp only [this]
  rfl

theorem VGraph.reset_spec (ga : Nat → Nat → Fresh Bool) (gv : Nat → Nat → Fresh V) (x : V) :
    ∃ G', G.reset ga gv (fun _ => x) = some G' ∧ G'.Inv n nrank threads ∧
      (∀ v, 1 ≤ v → v ≤ n → userSem n nrank threads G'.vp v = some x) ∧
      (∀ v, 1 ≤ v → v ≤ n → userSem n nrank threads G'.active v = none) := by
  unfold VGraph.reset
  obtain ⟨G1, a1, a2, a3, a4⟩ := VGraph.setAllInactive_spec c hG ga
  rw [a1]
  simp only [Option.bind_eq_bind, Option.bind_some]
  obtain ⟨d, b1, b2, b3, b4⟩ := DVec.setAll_spec a2.vp c.rpos gv (fun _ => x)
  rw [b1]
  exact ⟨_, rfl, ⟨a2.hn, a2.hr, a2.ht, b2, b3, a2.act, a2.actReady⟩,
    fun v h1 h2 => userSem_setAll c b4 h1 h2, a4⟩

/-- One call refines the specification. -/
theorem VGraph.step_spec (gv : Nat → Nat → Fresh V) (ga : Nat → Nat → Fresh Bool) {op : VOp V}
    (hop : op.Valid n) {S : VSpec V} (hP : G.Props n nrank threads S.prop) :
    ∃ G', G.step gv ga op = some G' ∧ G'.Inv n nrank threads ∧
      G'.Props n nrank threads (S.step op).prop ∧
      ((op.FixesActivity ∨ G.Acts n nrank threads S.active) →
        G'.Acts n nrank threads (S.step op).active) := by
  cases op with
  | setAllProp x =>
    obtain ⟨G', a1, a2, a3, a4⟩ := VGraph.setAllVertexproperty_spec c hG gv x
    refine ⟨G', a1, a2, a4, ?_⟩
    intro h; rcases h with h | h
    · exact h.elim
    · unfold VGraph.Acts; rw [a3]; exact h
  | setProp u x =>
    obtain ⟨G', a1, a2, a3, a4⟩ :=
      VGraph.setVertexproperty_spec c hG (fun r => gv r 0) hop.1 hop.2 x
    refine ⟨G', a1, a2, ?_, ?_⟩
    · intro v h1 h2
      rw [a4 v h1 h2, hP v h1 h2]
      simp only [VSpec.step]; split <;> rfl
    · intro h; rcases h with h | h
      · exact h.elim
      · unfold VGraph.Acts; rw [a3]; exact h
  | applyAll f =>
    obtain ⟨G', a1, a2, a3, a4⟩ := VGraph.applyToAllVertices_spec c hG gv f
    refine ⟨G', a1, a2, ?_, ?_⟩
    · intro v h1 h2
      rw [a4 v h1 h2, hP v h1 h2]
      rfl
    · intro h; rcases h with h | h
      · exact h.elim
      · unfold VGraph.Acts; rw [a3]; exact h
  | setAllActive =>
    obtain ⟨G', a1, a2, a3, a4⟩ := VGraph.setAllActive_spec c hG ga
    refine ⟨G', a1, a2, ?_, fun _ => a4⟩
    unfold VGraph.Props; rw [a3]; exact hP
  | setAllInactive =>
    obtain ⟨G', a1, a2, a3, a4⟩ := VGraph.setAllInactive_spec c hG ga
    refine ⟨G', a1, a2, ?_, fun _ => a4⟩
    unfold VGraph.Props; rw [a3]; exact hP
  | setActive u =>
    obtain ⟨G', a1, a2, a3, a4⟩ := VGraph.setActive_spec c hG (fun r => ga r 0) hop.1 hop.2
    refine ⟨G', a1, a2, ?_, ?_⟩
    · unfold VGraph.Props; rw [a3]; exact hP
    · intro h; rcases h with h | h
      · exact h.elim
      · intro v h1 h2
        rw [a4 v h1 h2, h v h1 h2]
        simp only [VSpec.step]
        by_cases e : v = u <;> simp [e]
  | setInactive u =>
    obtain ⟨G', a1, a2, a3, a4⟩ := VGraph.setInactive_spec c hG (fun r => ga r 0) hop.1 hop.2
    refine ⟨G', a1, a2, ?_, ?_⟩
    · unfold VGraph.Props; rw [a3]; exact hP
    · intro h; rcases h with h | h
      · exact h.elim
      · intro v h1 h2
        rw [a4 v h1 h2, h v h1 h2]
        simp only [VSpec.step]
        by_cases e : v = u <;> simp [e]
  | reset d =>
    obtain ⟨G', a1, a2, a3, a4⟩ := VGraph.reset_spec c hG ga gv d
    exact ⟨G', a1, a2, a3, fun _ => a4⟩

end ops

theorem VGraph.runOps_spec {n nrank threads : Nat} (c : Cfg n nrank threads)
    (gv : Nat → Nat → Nat → Fresh V) (ga : Nat → Nat → Nat → Fresh Bool) (ops : List (VOp V)) :
    ∀ (k : Nat) (G : VGraph V) (S : VSpec V), G.Inv n nrank threads →
      (∀ op ∈ ops, op.Valid n) → G.Props n nrank threads S.prop →
      ∃ G', G.runOps gv ga k ops = some G' ∧ G'.Inv n nrank threads ∧
        G'.Props n nrank threads (S.run ops).prop ∧
        (((∃ op ∈ ops, op.FixesActivity) ∨ G.Acts n nrank threads S.active) →
          G'.Acts n nrank threads (S.run ops).active) := by
  induction ops with
  | nil =>
    intro k G S hG _ hP
    refine ⟨G, rfl, hG, hP, ?_⟩
    intro h
    rcases h with ⟨op, h, _⟩ | h
    · cases h
    · exact h
  | cons op ops ih =>
    intro k G S hG hv hP
    obtain ⟨G1, a1, a2, a3, a4⟩ := VGraph.step_spec c hG (gv k) (ga k)
      (hv op List.mem_cons_self) hP
    obtain ⟨G2, b1, b2, b3, b4⟩ := ih (k + 1) G1 (S.step op) a2
      (fun o ho => hv o (List.mem_cons_of_mem _ ho)) a3
    refine ⟨G2, ?_, b2, b3, ?_⟩
    · unfold VGraph.runOps; rw [a1]; exact b1
    · intro h
      apply b4
      rcases h with ⟨o, ho, hf⟩ | h
      · rcases List.mem_cons.mp ho with e | e
        · subst e; exact Or.inr (a4 (Or.inl hf))
        · exact Or.inl ⟨o, e, hf⟩
      · exact Or.inr (a4 (Or.inr h))

end GraphMat

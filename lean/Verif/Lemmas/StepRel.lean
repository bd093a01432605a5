import Verif.Lemmas.RunLoop

namespace GraphMat

variable {α S T U V E : Type}

theorem outMsgs_ne_nil {msg : V → T} {proc : T → E → V → U} {es : List (Edge E)} {P : Nat → V} {A : Nat → Bool} {d : Nat} :
    outMsgs msg proc es P A d ≠ [] ↔ ∃ e ∈ es, e.dst = (d : Int) ∧ A e.src.toNat = true := by
  unfold outMsgs
  rw [Ne, List.filterMap_eq_nil_iff]
  constructor
  · intro h
    apply Classical.byContradiction
    intro hn
    apply h
    intro e he
    rw [if_neg (fun hc => hn ⟨e, he, hc⟩)]
  · rintro ⟨e, he, hc⟩ h
    have := h e he
    rw [if_pos hc] at this
    cases this

theorem inMsgs_ne_nil {msg : V → T} {proc : T → E → V → U} {es : List (Edge E)} {P : Nat → V} {A : Nat → Bool} {d : Nat} :
    inMsgs msg proc es P A d ≠ [] ↔ ∃ e ∈ es, e.src = (d : Int) ∧ A e.dst.toNat = true := by
  unfold inMsgs
  rw [Ne, List.filterMap_eq_nil_iff]
  constructor
  · intro h
    apply Classical.byContradiction
    intro hn
    apply h
    intro e he
    rw [if_neg (fun hc => hn ⟨e, he, hc⟩)]
  · rintro ⟨e, he, hc⟩ h
    have := h e he
    rw [if_pos hc] at this
    cases this

theorem inbox_perm {dir : EdgeDir} {msg : V → T} {proc : T → E → V → U} {es es' : List (Edge E)} {P P' : Nat → V}
    {A A' : Nat → Bool} {n d : Nat} (hd1 : 1 ≤ d) (hd2 : d ≤ n) (hv : ∀ e ∈ es, e.Valid n) (hes : es.Perm es')
    (hP : ∀ v, 1 ≤ v → v ≤ n → P v = P' v) (hA : ∀ v, 1 ≤ v → v ≤ n → A v = A' v) :
    (inbox dir msg proc es P A d).Perm (inbox dir msg proc es' P' A' d) := by
  have ho : (outMsgs msg proc es P A d).Perm (outMsgs msg proc es' P' A' d) := by
    refine List.Perm.trans (.of_eq ?_) (hes.filterMap _)
    unfold outMsgs
    apply List.filterMap_congr
    intro e he
    obtain ⟨h1, h2, h3, h4⟩ := hv e he
    rw [hP _ (by omega) (by omega), hA _ (by omega) (by omega), hP d hd1 hd2]
  have hi : (inMsgs msg proc es P A d).Perm (inMsgs msg proc es' P' A' d) := by
    refine List.Perm.trans (.of_eq ?_) (hes.filterMap _)
    unfold inMsgs
    apply List.filterMap_congr
    intro e he
    obtain ⟨h1, h2, h3, h4⟩ := hv e he
    rw [hP e.dst.toNat (by omega) (by omega), hA _ (by omega) (by omega), hP d hd1 hd2]
  cases dir with
  | out => exact ho
  | inn => exact hi
  | all => exact ho.append hi

/-- With an associative and commutative reduction a superstep has only one outcome. -/
theorem StepRel.unique {gp : GProg T U V E} {msg : V → T} {proc : T → E → V → U} {act : Bool} {n : Nat}
    {es es' : List (Edge E)} (hassoc : ∀ a b c, gp.reduce (gp.reduce a b) c = gp.reduce a (gp.reduce b c))
    (hcomm : ∀ a b, gp.reduce a b = gp.reduce b a) (hv : ∀ e ∈ es, e.Valid n) (hes : es.Perm es')
    {P1 P2 P1' P2' : Nat → V} {A1 A2 A1' A2' : Nat → Bool} {c1 c2 : Bool}
    (hP : ∀ v, 1 ≤ v → v ≤ n → P1 v = P2 v) (hA : ∀ v, 1 ≤ v → v ≤ n → A1 v = A2 v)
    (h1 : StepRel gp msg proc act n es P1 A1 P1' A1' c1) (h2 : StepRel gp msg proc act n es' P2 A2 P2' A2' c2) :
    (∀ v, 1 ≤ v → v ≤ n → P1' v = P2' v) ∧ (∀ v, 1 ≤ v → v ≤ n → A1' v = A2' v) ∧ c1 = c2 := by
  obtain ⟨r1, a1, a2, a3, a4⟩ := h1
  obtain ⟨r2, b1, b2, b3, b4⟩ := h2
  have hr : ∀ d, 1 ≤ d → d ≤ n → r1 d = r2 d := by
    intro d hd1 hd2
    have e1 := (a1 d hd1 hd2).perm (inbox_perm hd1 hd2 hv hes hP hA)
    rw [e1.unique hassoc hcomm, (b1 d hd1 hd2).unique hassoc hcomm]
  refine ⟨?_, ?_, ?_⟩
  · intro v v1 v2
    rw [a2 v v1 v2, b2 v v1 v2, hr v v1 v2, hP v v1 v2]
  · intro v v1 v2
    rw [a3 v v1 v2, b3 v v1 v2, hr v v1 v2, hP v v1 v2]
  · rw [Bool.eq_iff_iff, a4, b4]
    constructor
    · intro h v v1 v2
      rw [← hr v v1 v2, ← hP v v1 v2]; exact h v v1 v2
    · intro h v v1 v2
      rw [hr v v1 v2, hP v v1 v2]; exact h v v1 v2

theorem Steps.unique {gp : S → GProg T U V E} {every : Int → S → S} {msg : S → V → T} {proc : S → T → E → V → U}
    {act : Bool} {n : Nat} {es es' : List (Edge E)}
    (hassoc : ∀ s a b c, (gp s).reduce ((gp s).reduce a b) c = (gp s).reduce a ((gp s).reduce b c))
    (hcomm : ∀ s a b, (gp s).reduce a b = (gp s).reduce b a) (hv : ∀ e ∈ es, e.Valid n) (hes : es.Perm es')
    {P1 P2 : Nat → V} {A1 A2 : Nat → Bool} {s : S}
    (hP : ∀ v, 1 ≤ v → v ≤ n → P1 v = P2 v) (hA : ∀ v, 1 ≤ v → v ≤ n → A1 v = A2 v) {k : Nat} :
    ∀ {P1' P2' : Nat → V} {A1' A2' : Nat → Bool} {s1 s2 : S} {c1 c2 : List Bool},
      Steps gp every msg proc act n es P1 A1 s k P1' A1' s1 c1 → Steps gp every msg proc act n es' P2 A2 s k P2' A2' s2 c2 →
      (∀ v, 1 ≤ v → v ≤ n → P1' v = P2' v) ∧ (∀ v, 1 ≤ v → v ≤ n → A1' v = A2' v) ∧ s1 = s2 ∧ c1 = c2 := by
  induction k with
  | zero =>
    intro P1' P2' A1' A2' s1 s2 c1 c2 h1 h2
    cases h1
    cases h2
    exact ⟨hP, hA, rfl, rfl⟩
  | succ k ih =>
    intro P1' P2' A1' A2' s1 s2 c1 c2 h1 h2
    cases h1 with
    | succ h1 g1 =>
      cases h2 with
      | succ h2 g2 =>
        obtain ⟨e1, e2, e3, e4⟩ := ih h1 h2
        subst e3 e4
        obtain ⟨f1, f2, f3⟩ := StepRel.unique (hassoc _) (hcomm _) hv hes e1 e2 g1 g2
        subst f3
        exact ⟨f1, f2, rfl, rfl⟩

theorem Steps.length {gp : S → GProg T U V E} {every : Int → S → S} {msg : S → V → T} {proc : S → T → E → V → U}
    {act : Bool} {n : Nat} {es : List (Edge E)} {P P' : Nat → V} {A A' : Nat → Bool} {s s' : S} {k : Nat} {cs : List Bool}
    (h : Steps gp every msg proc act n es P A s k P' A' s' cs) : cs.length = k := by
  induction h with
  | zero => rfl
  | succ _ _ ih => simp [ih]

/-- The program object after `k` supersteps: `do_every_iteration` was called with `0, ..., k-1`. -/
theorem Steps.calls {gp : S → GProg T U V E} {every : Int → S → S} {msg : S → V → T} {proc : S → T → E → V → U}
    {act : Bool} {n : Nat} {es : List (Edge E)} {P P' : Nat → V} {A A' : Nat → Bool} {s s' : S} {k : Nat} {cs : List Bool}
    (h : Steps gp every msg proc act n es P A s k P' A' s' cs) :
    s' = (List.range k).foldl (fun s (i : Nat) => every i s) s := by
  induction h with
  | zero => rfl
  | succ _ _ ih => rw [List.range_succ, List.foldl_append, ← ih]; rfl

/-! ### Graphs as the user sees them -/

/-- The graph object (all ranks together) holds the edges `es`, the properties `P` and the active set `A`,
all in user ids. -/
def Graph.Represents (G : Graph V E) (n nrank threads : Nat) (es : List (Edge E)) (P : Nat → V) (A : Nat → Bool) : Prop :=
  ∃ TA TT PA PT, G.Has n nrank threads TA TT PA PT es P A

/-- Loading a graph and calling any functions on its vertices. -/
theorem Graph.load_represents {n nrank threads : Nat} (c : Cfg n nrank threads) (env : LoadEnv V E)
    (hsA : env.sA.OK) (hsT : env.sAT.OK) {d : V} (hd : env.d = fun _ => d) {blobs : List (List (Edge E))}
    (hb : blobs.length = nrank) (hin : ∀ es ∈ blobs, ∀ e ∈ es, e.Valid n)
    (gv : Nat → Nat → Nat → Fresh V) (ga : Nat → Nat → Nat → Fresh Bool) {ops : List (VOp V)}
    (hops : ∀ op ∈ ops, op.Valid n) (hfix : ∃ op ∈ ops, op.FixesActivity) (A0 : Nat → Bool) :
    ∃ out G vg, Graph.readEdgelist env threads nrank n n blobs = some (out, G) ∧
      G.toVGraph.runOps gv ga 0 ops = some vg ∧
      ({ G with toVGraph := vg } : Graph V E).Represents n nrank threads blobs.flatten
        (VSpec.run ⟨fun _ => d, A0⟩ ops).prop (VSpec.run ⟨fun _ => d, A0⟩ ops).active := by
  have hv : ∀ e ∈ blobs.flatten, e.Valid n := by
    intro e he
    rw [List.mem_flatten] at he
    obtain ⟨es, h1, h2⟩ := he
    exact hin es h1 e h2
  obtain ⟨out, G, TA, TT, PA, PT, h1, h2, _, _, _, _, h3⟩ := Graph.readEdgelist_spec c env hsA hsT hb hv
  obtain ⟨G0, a1, a2, a3, _⟩ := VGraph.create_spec c env.gv env.ga env.d
  rw [a1] at h3
  injection h3 with h3
  subst h3
  obtain ⟨vg, b1, b2, b3, b4⟩ := VGraph.runOps_spec c gv ga ops 0 G.toVGraph ⟨fun _ => d, A0⟩ a2 hops (by
    intro v v1 v2
    rw [a3 v v1 v2, hd])
  exact ⟨out, G, vg, h1, b1, TA, TT, PA, PT, hv, ⟨b2, h2.A, h2.AT⟩, b3, b4 (.inl hfix)⟩

/-- What the rest of the interface returns for such a graph. -/
theorem Graph.Represents.inv {G : Graph V E} {n nrank threads : Nat} {es : List (Edge E)} {P : Nat → V} {A : Nat → Bool}
    (h : G.Represents n nrank threads es P A) : G.toVGraph.Inv n nrank threads := by
  obtain ⟨TA, TT, PA, PT, h⟩ := h
  exact h.holds.inv

theorem Graph.Represents.valid {G : Graph V E} {n nrank threads : Nat} {es : List (Edge E)} {P : Nat → V} {A : Nat → Bool}
    (h : G.Represents n nrank threads es P A) : ∀ e ∈ es, e.Valid n := by
  obtain ⟨TA, TT, PA, PT, h⟩ := h
  exact h.valid

theorem Graph.Represents.props {G : Graph V E} {n nrank threads : Nat} {es : List (Edge E)} {P : Nat → V} {A : Nat → Bool}
    (h : G.Represents n nrank threads es P A) : G.toVGraph.Props n nrank threads P := by
  obtain ⟨TA, TT, PA, PT, h⟩ := h
  exact h.props

theorem Graph.Represents.acts {G : Graph V E} {n nrank threads : Nat} {es : List (Edge E)} {P : Nat → V} {A : Nat → Bool}
    (h : G.Represents n nrank threads es P A) : G.toVGraph.Acts n nrank threads A := by
  obtain ⟨TA, TT, PA, PT, h⟩ := h
  exact h.acts

end GraphMat
